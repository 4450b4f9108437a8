import Verif.Rest.PipeProps2
/-!
# C122-C124, C126, C127, C129: responses, results, streams
-/
namespace Verif.Rest.Serve

open Verif.Rest Verif.Rest.Spec

variable {V C : Type}

/-- Shorthand for texts. -/
private def S (s : String) : Str := s.toList

/-! ## C124: the content type of a response -/

/-- C124: the content type of the response is the first in the Accept header that the host
can write, in the order of the list. -/
theorem first_supported (accept ct : Str) :
    chooseType accept = some ct ↔
      ∃ pre post, (split ',' accept).map mediaType = pre ++ ct :: post ∧ ct ∈ contentTypes ∧
        ∀ c ∈ pre, c ∉ contentTypes := by
  unfold chooseType
  rw [List.find?_eq_some_iff_append]
  constructor
  · rintro ⟨h1, pre, post, h2, h3⟩
    exact ⟨pre, post, h2, by simpa using h1, fun c hc => by simpa using h3 c hc⟩
  · rintro ⟨pre, post, h2, h1, h3⟩
    exact ⟨by simpa using h1, pre, post, h2, fun c hc => by simpa using h3 c hc⟩

/-- A header list after `Set` gives what was set. -/
theorem get_put (h : Hdr) (k v : Str) : (h.put k v).get k = v := by
  unfold Hdr.put Hdr.get
  rw [List.find?_append]
  have : (h.filter (fun e => decide (e.1 ≠ k))).find? (fun e => decide (e.1 = k)) = none := by
    rw [List.find?_eq_none]
    intro e he
    simpa using (List.mem_filter.mp he).2
  rw [this]
  simp

/-- `Set` leaves other names. -/
theorem get_put_ne (h : Hdr) (k k' v : Str) (hk : k ≠ k') : (h.put k v).get k' = h.get k' := by
  unfold Hdr.put Hdr.get
  rw [List.find?_append]
  have : (h.filter (fun e => decide (e.1 ≠ k))).find? (fun e => decide (e.1 = k')) =
      h.find? (fun e => decide (e.1 = k')) := by
    rw [List.find?_filter]
    congr 1
    funext e
    by_cases he : e.1 = k'
    · have : e.1 ≠ k := fun e' => hk (e'.symm.trans he)
      rw [decide_eq_true he, decide_eq_true this]; rfl
    · simp [he]
  rw [this]
  simp [hk]

/-- C124, C122: a single result that sets no status is answered with status 200, in the chosen
type, and nothing but its encoding. -/
theorem result_written (op : Op V) (encoder : Str → Encoder V) (redact : PErr → PErr)
    (scenarios : List Scen) (encodeErr : PErr) (accept : Str) (r : Result V) (w : W) (ct t : Str)
    (hw : w.sent = none) (hb : w.body = []) (hr : r.reader = none) (hs : r.status = none)
    (hrules : op.resRules = []) (hct : chooseType (acceptFor accept [r]) = some ct)
    (he : (encoder ct).one r = some t) :
    ∃ w', (writeResultHeaders [r] w).bind (writeResults op encoder redact scenarios encodeErr accept [r]) =
        some w' ∧ w'.body = t ∧ ∃ h, w'.sent = some (200, h) ∧ h.get "Content-Type".toList = ct := by
  have h0 : (if op.ctype ≠ [] then r.reader else none) = none := by rw [hr]; simp
  unfold writeResultHeaders
  dsimp only
  rw [hs]
  dsimp only
  unfold writeResultHeaders
  rw [Option.bind_some]
  unfold writeResults
  rw [if_neg (by simp)]
  dsimp only
  rw [h0]
  dsimp only
  rw [hct]
  dsimp only
  rw [if_neg (by simp [hrules]), he]
  unfold writeEncoded
  refine ⟨_, rfl, ?_, ?_⟩
  · unfold W.write
    dsimp only
    rw [hw, hb]
    simp
  · unfold W.write
    dsimp only
    rw [hw]
    refine ⟨_, rfl, ?_⟩
    rw [get_put_ne _ _ _ _ (by decide), get_put]

/-- C124: a request whose Accept header names nothing the host can write is answered 415, with
no part of the result. -/
theorem unsupported_written (op : Op V) (encoder : Str → Encoder V) (redact : PErr → PErr)
    (scenarios : List Scen) (encodeErr : PErr) (accept : Str) (r : Result V) (w : W)
    (hw : w.sent = none) (hb : w.body = []) (hr : r.reader = none)
    (hct : chooseType (acceptFor accept [r]) = none) :
    ∃ w', writeResults op encoder redact scenarios encodeErr accept [r] w = some w' ∧
      (∃ h, w'.sent = some (415, h)) ∧ w'.body = "unsupported media type\n".toList := by
  have h0 : (if op.ctype ≠ [] then r.reader else none) = none := by rw [hr]; simp
  unfold writeResults
  rw [if_neg (by simp)]
  dsimp only
  rw [h0]
  dsimp only
  rw [hct]
  dsimp only
  unfold W.error W.writeHeader
  dsimp only
  rw [hw]
  dsimp only
  rw [if_neg (by omega), if_neg (by omega), Option.map_some]
  refine ⟨_, rfl, ⟨_, rfl⟩, ?_⟩
  unfold W.write
  dsimp only [Option.getD_some]
  rw [hb, if_neg (by omega)]
  decide

/-- C124: a request that is answered 415 had no effect. -/
def UnsupportedClaim : Prop :=
  ∀ (env : Env Val Unit) (op : Op Val) (rq : Request) (w' : W) (ctx : Unit) (args : Cells Val),
    (serveOp env op rq {}).2 = some w' → (∃ h, w'.sent = some (415, h)) →
    ∀ e ∈ (serveOp env op rq {}).1, ∀ c a, e ≠ Event.call c a

/-- An environment for the examples: no authenticator, the implementation returns 7. -/
def env0 : Env Val Unit where
  auth := none
  ctx := ()
  impl := fun _ _ => .ok [{ value := .one (.int 7) }]
  scenarios := []
  std := std0
  codec := fun _ => toy
  encoder := fun _ => { one := fun r => some (toy.enc r.value), named := fun _ => none }
  encodeErr := argumentErr []
  page := fun _ w => w

/-- An operation without arguments. -/
def op0 : Op Val where
  method := S "POST"
  path := S "/list"
  params := []

/-- A request that accepts these types. -/
def accepting (a : String) : Request := { mux := ⟨S "POST", S "/list", [], []⟩, accept := S a }

/-- C124 is false: the implementation has already been called. Wildcards are not understood. -/
theorem unsupported_fails : ¬ UnsupportedClaim := by
  intro h
  have hr : (serveOp env0 op0 (accepting "application/*") {}).2 = some
      (((serveOp env0 op0 (accepting "application/*") {}).2).getD {}) := by decide +kernel
  have h1 := h env0 op0 (accepting "application/*") _ () (fun _ => .nilPtr) hr
    ⟨((((serveOp env0 op0 (accepting "application/*") {}).2).getD {}).sent.getD (0, [])).2, by decide +kernel⟩
  have h2 : (serveOp env0 op0 (accepting "application/*") {}).1 = [.call () (zeros [])] := rfl
  rw [h2] at h1
  exact h1 _ (List.mem_cons_self ..) _ _ rfl

/-- C124: a type the client excludes with q=0, or wants less, is not chosen over another. -/
def QualityClaim : Prop := ∀ accept, chooseType accept = some "application/xml".toList →
  "application/xml;q=0".toList ∉ split ',' accept

/-- C124 is false for qualities: they are ignored. Wildcards and their like are refused. -/
theorem quality_fails : ¬ QualityClaim ∧
    chooseType (S "application/xml;q=0,application/json") = some (S "application/xml") ∧
    chooseType (S "application/*") = none ∧ chooseType (S "text/html, */*;q=0.1") = none :=
  ⟨fun h => absurd (h (S "application/xml;q=0,application/json") (by decide +kernel)) (by decide +kernel),
    by decide +kernel, by decide +kernel, by decide +kernel⟩

example : chooseType (S "text/html, Application/XML;q=0.9, application/json") = some (S "application/xml") := by
  decide +kernel

/-! ## C122: results arrive -/

private theorem clientResult_typed (codec : Str → Codec V) (sniff : Str → Str) (op : Op V)
    (shs : List (Shape V)) (w : W) (c : Nat) (h : Hdr) (ct : Str) (hs : w.sent = some (c, h))
    (hg : h.get "Content-Type".toList = ct) (hc : ct ≠ []) (hm : mediaType ct ≠ [])
    (h1 : 200 ≤ c) (h2 : c ≤ 299) :
    clientResult codec sniff op shs w = clientRead codec op (mediaType ct) shs w.body := by
  unfold clientResult received
  rw [hs]
  dsimp only [Option.getD_some]
  have h3 : ¬ (ct = [] ∧ w.body ≠ []) := fun x => hc x.1
  rw [hg, if_neg (by omega), if_neg h3, if_pos hm]

private theorem clientResult_untyped (codec : Str → Codec V) (sniff : Str → Str) (op : Op V)
    (shs : List (Shape V)) (w : W) (c : Nat) (h : Hdr) (hs : w.sent = some (c, h))
    (hg : h.get "Content-Type".toList = []) (hb : w.body ≠ []) (hm : mediaType (sniff w.body) ≠ [])
    (h1 : 200 ≤ c) (h2 : c ≤ 299) :
    clientResult codec sniff op shs w = clientRead codec op (mediaType (sniff w.body)) shs w.body := by
  unfold clientResult received
  rw [hs]
  dsimp only [Option.getD_some]
  have h3 : (h.get "Content-Type".toList = [] ∧ w.body ≠ []) := ⟨hg, hb⟩
  rw [if_neg (by omega), if_pos h3, if_pos hm]

/-- C122, what holds: a single result that the encoding reads back arrives at the caller of the
linked function as it was, whatever headers it sets but the content type. -/
theorem result_arrives_partial (op : Op V) (encoder : Str → Encoder V) (codec : Str → Codec V)
    (sniff : Str → Str) (redact : PErr → PErr) (scenarios : List Scen) (encodeErr : PErr)
    (r : Result V) (sh : Shape V) (t rest : Str) (hr : r.reader = none) (hs : r.status = none)
    (hrules : op.resRules = [])
    (he : (encoder "application/json".toList).one r = some t)
    (hd : (codec "application/json".toList).dec sh t = some (r.value, rest)) :
    ∃ w', (writeResultHeaders [r] {}).bind (writeResults op encoder redact scenarios encodeErr
        "application/json".toList [r]) = some w' ∧
      clientResult codec sniff op [sh] w' = .values [r.value] := by
  obtain ⟨w', h1, h2, h, h3, h4⟩ := result_written op encoder redact scenarios encodeErr
    "application/json".toList r {} "application/json".toList t rfl rfl hr hs hrules
    (by unfold acceptFor; rw [if_neg (by decide)]; decide +kernel) he
  refine ⟨w', h1, ?_⟩
  have hm : mediaType "application/json".toList = "application/json".toList := by decide +kernel
  rw [clientResult_typed codec sniff op [sh] w' 200 h _ h3 h4 (by decide) (by rw [hm]; decide) (by omega)
    (by omega), hm]
  unfold clientRead
  rw [if_neg (by simp), if_neg (by decide), if_neg (by decide), if_neg (by simp [hrules]), h2]
  unfold readEach
  rw [hd]
  rfl

/-- C122, what holds: several results with names arrive as they were. -/
theorem results_arrive_partial (op : Op V) (encoder : Str → Encoder V) (codec : Str → Codec V)
    (sniff : Str → Str) (redact : PErr → PErr) (scenarios : List Scen) (encodeErr : PErr)
    (rs : List (Result V)) (shs : List (Shape V)) (t : Str) (h2 : 2 ≤ rs.length)
    (hl : shs.length = rs.length)
    (hs : ∀ r ∈ rs, r.status = none) (hrules : op.resRules ≠ [])
    (he : (encoder "application/json".toList).named (op.resRules.zip rs) = some t)
    (hd : (codec "application/json".toList).decObj (op.resRules.zip shs) t = some (rs.map Result.value)) :
    ∃ w', (writeResultHeaders rs {}).bind (writeResults op encoder redact scenarios encodeErr
        "application/json".toList rs) = some w' ∧
      clientResult codec sniff op shs w' = .values (rs.map Result.value) := by
  have hhead : ∀ (rs : List (Result V)) (w : W), (∀ r ∈ rs, r.status = none) →
      ∃ h, writeResultHeaders rs w = some { w with header := h } := by
    intro rs
    induction rs with
    | nil => intro w _; exact ⟨w.header, rfl⟩
    | cons r rs ih =>
      intro w hs
      unfold writeResultHeaders
      dsimp only
      rw [hs r (List.mem_cons_self ..)]
      dsimp only
      obtain ⟨h, e⟩ := ih { w with header := putAll w.header r.headers }
        (fun x hx => hs x (List.mem_cons_of_mem _ hx))
      exact ⟨h, e⟩
  obtain ⟨h, e⟩ := hhead rs {} hs
  rw [e, Option.bind_some]
  match rs, h2, shs, hl with
  | a :: b :: rs', _, sa :: shs', hl =>
    unfold writeResults
    rw [if_neg (by simp)]
    dsimp only
    have hc : chooseType (acceptFor "application/json".toList (a :: b :: rs')) =
        some "application/json".toList := by
      unfold acceptFor; rw [if_neg (by decide)]; decide +kernel
    rw [hc]
    dsimp only
    rw [if_pos hrules, he]
    unfold writeEncoded
    refine ⟨_, rfl, ?_⟩
    have hm : mediaType "application/json".toList = "application/json".toList := by decide +kernel
    rw [clientResult_typed codec sniff op _ _ 200 _ "application/json".toList rfl
      (by rw [get_put_ne _ _ _ _ (by decide), get_put]) (by decide) (by rw [hm]; decide) (by omega)
      (by omega), hm]
    unfold clientRead W.write
    dsimp only [Option.getD_none]
    rw [if_neg (by simp), if_neg (by decide), if_neg (by decide), if_pos hrules, if_neg (by omega),
      List.nil_append, hd]

/-- C122: a function without results is answered 204, and the linked function returns. -/
theorem no_results_arrive (op : Op V) (encoder : Str → Encoder V) (codec : Str → Codec V)
    (sniff : Str → Str) (redact : PErr → PErr) (scenarios : List Scen) (encodeErr : PErr) (accept : Str) :
    ∃ w', writeResults op encoder redact scenarios encodeErr accept [] {} = some w' ∧
      w'.sent = some (204, []) ∧ w'.body = [] ∧ clientResult codec sniff op [] w' = .values [] := by
  refine ⟨_, rfl, rfl, rfl, ?_⟩
  unfold clientResult received clientRead
  dsimp only [Option.getD_some]
  rw [if_neg (by omega), if_pos (by rfl)]

/-- The encoders and codecs of the examples agree. -/
example : ∃ w', (writeResultHeaders [{ value := .one (Val.int 7), headers := [(S "X", S "y")] }] {}).bind
      (writeResults op0 env0.encoder id [] (argumentErr []) "application/json".toList
        [{ value := .one (.int 7), headers := [(S "X", S "y")] }]) = some w' ∧
    clientResult (fun _ => toy) id op0 [.one intKind] w' = .values [.one (.int 7)] :=
  result_arrives_partial op0 env0.encoder (fun _ => toy) id id [] (argumentErr [])
    { value := .one (.int 7), headers := [(S "X", S "y")] } (.one intKind) (S "7") [] rfl rfl rfl
    (by decide +kernel) (by decide +kernel)

/-! ## C127: headers and status of results -/

/-- C127: a result that sets a status is still sent with a content type. -/
def StatusTypeClaim : Prop :=
  ∀ (op : Op Val) (r : Result Val) (w' : W),
    (writeResultHeaders [r] {}).bind (writeResults op env0.encoder id [] (argumentErr [])
      "application/json".toList [r]) = some w' →
    ∃ c h, w'.sent = some (c, h) ∧ h.get "Content-Type".toList ≠ []

/-- C127 fails for every result with a status: what is sent has its status and the headers of
the result, but not the content type of the body that follows. -/
theorem status_loses_type (op : Op V) (encoder : Str → Encoder V) (redact : PErr → PErr)
    (scenarios : List Scen) (encodeErr : PErr) (accept : Str) (r : Result V) (s : Nat) (ct t : Str)
    (hr : r.reader = none) (hs : r.status = some s) (h200 : 200 ≤ s) (h999 : s ≤ 999)
    (hrules : op.resRules = []) (hct : chooseType (acceptFor accept [r]) = some ct)
    (he : (encoder ct).one r = some t) :
    ∃ w', (writeResultHeaders [r] {}).bind (writeResults op encoder redact scenarios encodeErr accept [r]) =
        some w' ∧ w'.sent = some (s, putAll [] r.headers) := by
  have h0 : (if op.ctype ≠ [] then r.reader else none) = none := by rw [hr]; simp
  unfold writeResultHeaders
  dsimp only
  rw [hs]
  dsimp only
  unfold W.writeHeader
  dsimp only
  rw [if_neg (by omega), if_neg (by omega), Option.bind_some]
  unfold writeResultHeaders
  rw [Option.bind_some]
  unfold writeResults
  rw [if_neg (by simp)]
  dsimp only
  rw [h0]
  dsimp only
  rw [hct]
  dsimp only
  rw [if_neg (by simp [hrules]), he]
  exact ⟨_, rfl, rfl⟩

/-- The consequence for the linked function: net/http looks at the body, and the linked
function reads the result as the type it finds there, so a result in JSON with a status is
read as plain text. -/
theorem status_result_read_as_text (op : Op V) (encoder : Str → Encoder V) (codec : Str → Codec V)
    (sniff : Str → Str) (redact : PErr → PErr) (scenarios : List Scen) (encodeErr : PErr)
    (r : Result V) (sh : Shape V) (s : Nat) (t : Str)
    (hr : r.reader = none) (hs : r.status = some s) (h200 : 200 ≤ s) (h299 : s ≤ 299) (h204 : s ≠ 204)
    (hh : r.headers = []) (hrules : op.resRules = [])
    (he : (encoder "application/json".toList).one r = some t) (ht : t ≠ [])
    (hsniff : mediaType (sniff t) = "text/plain".toList) :
    ∃ w', (writeResultHeaders [r] {}).bind (writeResults op encoder redact scenarios encodeErr
        "application/json".toList [r]) = some w' ∧
      clientResult codec sniff op [sh] w' =
        (match readEach (codec "text/plain".toList) [sh] t with
          | some vs => .values vs
          | none => .error) := by
  have h0 : (if op.ctype ≠ [] then r.reader else none) = none := by rw [hr]; simp
  unfold writeResultHeaders
  dsimp only
  rw [hs]
  dsimp only
  unfold W.writeHeader
  dsimp only
  rw [if_neg (by omega), if_neg (by omega), Option.bind_some]
  unfold writeResultHeaders
  rw [Option.bind_some]
  unfold writeResults
  rw [if_neg (by simp)]
  dsimp only
  rw [h0]
  dsimp only
  have hc : chooseType (acceptFor "application/json".toList [r]) = some "application/json".toList := by
    unfold acceptFor; rw [if_neg (by decide)]; decide +kernel
  rw [hc]
  dsimp only
  rw [if_neg (by simp [hrules]), he]
  unfold writeEncoded
  refine ⟨_, rfl, ?_⟩
  have hbody : ∀ w : W, w.sent = some (s, putAll [] r.headers) → w.body = [] → (w.write t).body = t := by
    intro w h1 h2
    unfold W.write
    rw [h1, h2]
    dsimp only [Option.getD_some]
    rw [if_neg (by omega), List.nil_append]
  have hb := hbody { header := Hdr.put (Hdr.put (putAll [] r.headers) "Content-Type".toList "application/json".toList) "Content-Length".toList (Nat.toDigits 10 t.length), sent := some (s, putAll [] r.headers) } rfl rfl
  rw [clientResult_untyped codec sniff op [sh] _ s (putAll [] r.headers) rfl (by rw [hh]; rfl)
    (by rw [hb]; exact ht) (by rw [hb, hsniff]; decide) h200 h299, hb, hsniff]
  unfold clientRead
  rw [if_neg (by simp), if_neg (by decide), if_neg (by decide), if_neg (by simp [hrules])]
  cases readEach (codec "text/plain".toList) [sh] t <;> rfl

/-- C127 fails: a status of 0, the zero value, makes the handler panic. -/
theorem status_zero_panics (r : Result V) (rs : List (Result V)) (hs : r.status = some 0) :
    writeResultHeaders (r :: rs) {} = none := by
  unfold writeResultHeaders
  dsimp only
  rw [hs]
  rfl

/-- C127 fails: the content type a reader sets for itself, as in the documentation, is
replaced by that of the tag, for every operation with one. -/
theorem reader_type_replaced (op : Op V) (encoder : Str → Encoder V) (redact : PErr → PErr)
    (scenarios : List Scen) (encodeErr : PErr) (accept : Str) (r : Result V) (text : Str)
    (hr : r.reader = some text) (hs : r.status = none) (hc : op.ctype ≠ []) :
    ∃ w', (writeResultHeaders [r] {}).bind (writeResults op encoder redact scenarios encodeErr accept [r]) =
        some w' ∧ w'.body = text ∧ ∃ h, w'.sent = some (200, h) ∧ h.get "Content-Type".toList = op.ctype := by
  have h0 : (if op.ctype ≠ [] then r.reader else none) = some text := by rw [if_pos hc, hr]
  unfold writeResultHeaders
  dsimp only
  rw [hs]
  dsimp only
  unfold writeResultHeaders
  rw [Option.bind_some]
  unfold writeResults
  rw [if_neg (by simp)]
  dsimp only
  rw [h0]
  refine ⟨_, rfl, by unfold W.write; simp, _, rfl, get_put _ _ _⟩

/-- C127 is false. -/
theorem status_type_fails : ¬ StatusTypeClaim := by
  intro h
  obtain ⟨w', h1, h2⟩ := status_loses_type op0 env0.encoder id [] (argumentErr []) "application/json".toList
    { value := .one (.int 7), status := some 201 } 201 "application/json".toList (S "7") rfl rfl
    (by decide) (by decide) rfl (by decide +kernel) (by decide +kernel)
  obtain ⟨c, hd, h3, h4⟩ := h op0 { value := .one (.int 7), status := some 201 } w' h1
  rw [h2] at h3
  injection h3 with h3
  injection h3 with _ h3
  rw [← h3] at h4
  exact h4 rfl

/-! ## C123: no request makes a handler panic -/

/-- The number of values read from an object is that of its fields. -/
def Honest (codec : Codec V) : Prop := ∀ fs s vs, codec.decObj fs s = some vs → vs.length = fs.length

private theorem readElems_panic (std : Std) (k : Kind V) (ss : List Str) : readElems std k ss ≠ .panic := by
  induction ss with
  | nil => simp [readElems]
  | cons s ss ih =>
    unfold readElems
    split
    · simp
    · cases h : readElems std k ss with
      | panic => exact absurd h ih
      | _ => simp [Step.bind]

private theorem readParams_panic (std : Std) (codec : Str → Codec V) (mapping : Bool) (ctype : Str)
    (rq : Request) (hc : ctype ∈ contentTypes → ctype ∈ decodable) (ps : List (Prm V))
    (hp : ∀ p ∈ ps, ∀ k, p.shape ≠ .ptr k) (st : Reading V)
    (hm : mapping = true → (bodyShapes ps).length ≤ st.mapped.length) :
    readParams std codec mapping ctype rq ps st ≠ .panic := by
  induction ps generalizing st with
  | nil => simp [readParams]
  | cons p ps ih =>
    have ih' := fun st hm => ih (fun q hq => hp q (List.mem_cons_of_mem _ hq)) st hm
    have hp0 := hp p (List.mem_cons_self ..)
    unfold readParams readParam
    by_cases hv : p.loc = .void
    · rw [if_pos hv]
      refine ih' st (fun h => ?_)
      have := hm h
      have hnb : ¬ p.loc = Loc.body := by rw [hv]; simp [Loc.body]
      unfold bodyShapes at this ⊢
      rw [List.filter_cons_of_neg (by simpa using hnb)] at this
      exact this
    · rw [if_neg hv]
      by_cases hb : p.loc = Loc.body
      · rw [if_pos hb]
        have hbs : bodyShapes (p :: ps) = p.shape :: bodyShapes ps := by
          unfold bodyShapes
          rw [List.filter_cons_of_pos (by simpa using hb)]; rfl
        cases mapping with
        | true =>
          rw [if_pos rfl]
          have hlen := hm rfl
          rw [hbs] at hlen
          cases hmap : st.mapped with
          | nil => rw [hmap] at hlen; simp at hlen
          | cons a rest =>
            refine ih' _ (fun _ => ?_)
            rw [hmap] at hlen
            simpa using hlen
        | false =>
          rw [if_neg (by simp)]
          unfold decodeBody
          by_cases h1 : ctype ∈ contentTypes
          · rw [if_neg (not_not.mpr h1), if_neg (not_not.mpr (hc h1))]
            cases hsh : p.shape with
            | ptr k => exact absurd hsh (hp0 k)
            | one k =>
              dsimp only
              cases (codec ctype).dec (.one k) st.body with
              | none => simp [Step.bind]
              | some r => exact ih' _ (fun h => by cases h)
            | slice k =>
              dsimp only
              cases (codec ctype).dec (.slice k) st.body with
              | none => simp [Step.bind]
              | some r => exact ih' _ (fun h => by cases h)
          · rw [if_pos h1]; simp [Step.bind]
      · rw [if_neg hb]
        have hbs : bodyShapes (p :: ps) = bodyShapes ps := by
          unfold bodyShapes
          rw [List.filter_cons_of_neg (by simpa using hb)]
        rw [hbs] at hm
        have hread : readPlain std p rq ≠ .panic := by
          unfold readPlain
          cases hsh : p.shape with
          | ptr k => exact absurd hsh (hp0 k)
          | one k =>
            dsimp only
            split
            · simp
            · split <;> simp
          | slice k =>
            dsimp only
            split
            · split
              · simp
              · split
                · split <;> simp
                · cases h : readElems std k (valuesOf rq.query (p.name ++ "[]".toList)) with
                  | panic => exact absurd h (readElems_panic _ _ _)
                  | _ => simp [Step.bind]
            · split <;> simp
        cases h : readPlain std p rq with
        | panic => exact absurd h hread
        | ok a => exact ih' _ hm
        | _ => simp [Step.bind]

/-- C123, what holds: reading the arguments of an operation without pointers does not panic,
for no request whose content type has a decoder or is unknown. -/
theorem arguments_no_panic_partial (std : Std) (codec : Str → Codec V) (op : Op V) (rq : Request)
    (hp : ∀ p ∈ op.params, ∀ k, p.shape ≠ .ptr k)
    (hr : op.argRules ≠ [] → op.argRules.length = (bodyShapes op.params).length)
    (hh : ∀ c, Honest (codec c))
    (hc : requestType op rq ∈ contentTypes → requestType op rq ∈ decodable) :
    readArgs std codec op rq ≠ .panic := by
  unfold readArgs
  have hmap : ∀ mapped, readMapped codec op (requestType op rq) rq = .ok mapped →
      decide (op.argRules ≠ []) = true → (bodyShapes op.params).length ≤ mapped.length := by
    intro mapped he hd
    have hne : op.argRules ≠ [] := by simpa using hd
    unfold readMapped at he
    rw [if_neg hne] at he
    split at he
    · cases he
    · split at he
      · cases he
      · split at he
        · cases he
        · next vs hv =>
          injection he with he
          subst he
          rw [hh _ _ _ _ hv, List.length_zip, hr hne]
          omega
  cases hm : readMapped codec op (requestType op rq) rq with
  | panic =>
    unfold readMapped at hm
    split at hm
    · cases hm
    · split at hm
      · cases hm
      · next h1 =>
        split at hm
        · next h2 => exact absurd (hc (not_not.mp h1)) h2
        · split at hm <;> cases hm
  | ok mapped =>
    simp only [Step.bind]
    have := readParams_panic std codec (decide (op.argRules ≠ [])) (requestType op rq) rq hc op.params hp
      { cells := zeros op.params, body := rq.body, mapped } (hmap mapped hm)
    cases h : readParams std codec (decide (op.argRules ≠ [])) (requestType op rq) rq op.params
      { cells := zeros op.params, body := rq.body, mapped } with
    | panic => exact absurd h this
    | _ => simp
  | _ => simp [Step.bind]

/-- C123: no request makes reading the arguments panic. -/
def NoPanicClaim : Prop :=
  ∀ (op : Op Val) (rq : Request), (∀ p ∈ op.params, ∀ k, p.shape ≠ .ptr k) →
    readArgs std0 (fun _ => toy) op rq ≠ .panic

/-- C123 fails for every operation with one argument in its body: a request with the content
type of a form, or of a schema, makes the handler panic, whatever its body. -/
theorem form_panics (std : Std) (codec : Str → Codec V) (op : Op V) (p : Prm V) (rq : Request)
    (ho : op.params = [p]) (hb : p.loc = Loc.body) (hr : op.argRules = [])
    (hc : mediaType rq.ctype = "multipart/form-data".toList ∨
      mediaType rq.ctype = "application/json+schema".toList) :
    readArgs std codec op rq = .panic := by
  have hv : ¬ p.loc = .void := by rw [hb]; simp [Loc.body]
  have ht : requestType op rq = mediaType rq.ctype := by
    unfold requestType
    dsimp only
    rw [if_pos (by rcases hc with h | h <;> rw [h] <;> decide)]
  unfold readArgs readMapped
  rw [if_pos hr, ht]
  simp only [Step.bind]
  rw [ho]
  unfold readParams readParam
  rw [if_neg hv, if_pos hb]
  simp only [hr, ne_eq, not_true_eq_false, decide_false, Bool.false_eq_true, if_false]
  unfold decodeBody
  rcases hc with h | h
  · rw [h, if_neg (by decide), if_pos (by decide)]; rfl
  · rw [h, if_neg (by decide), if_pos (by decide)]; rfl

example : readArgs std0 (fun _ => toy) (inBodyOp "POST" [.one intKind])
    { mux := ⟨S "POST", S "/list", [], []⟩, ctype := S "multipart/form-data; boundary=x", body := S "5" } =
      .panic :=
  form_panics _ _ _ ⟨[], .one intKind, .at false false, [0]⟩ _ rfl rfl rfl (Or.inl (by decide +kernel))

/-- C123 is false. -/
theorem no_panic_fails : ¬ NoPanicClaim := by
  intro h
  exact h (inBodyOp "POST" [.one intKind])
    { mux := ⟨S "POST", S "/list", [], []⟩, ctype := S "multipart/form-data" }
    (by
      intro p hp k
      have : p = ⟨[], .one intKind, .at false false, [0]⟩ := by simpa [inBodyOp] using hp
      rw [this]; simp)
    (form_panics _ _ _ ⟨[], .one intKind, .at false false, [0]⟩ _ rfl rfl rfl (Or.inl (by decide +kernel)))

/-! ## C129: texts of integers -/

/-- C129: a text that is not the decimal of an integer is refused. -/
def DecimalClaim : Prop := ∀ s i, readText std0.isNumber std0.quote intKind s = some (.int i) →
  s = printInt i ∨ s = '+' :: printInt i

/-- C129, what holds: the decimal of every int is read as it. -/
theorem decimals_read_partial (i : Int) (h1 : -2 ^ 63 ≤ i) (h2 : i < 2 ^ 63) :
    readText std0.isNumber std0.quote intKind (printInt i) = some (.int i) := by
  show (scanInt (printInt i)).map Val.int = _
  rw [scan_print i h1 h2]; rfl

/-- C129 is false: what follows the digits is dropped, a leading zero means octal, and then
digits above 7 are dropped too. -/
theorem decimals_fails : ¬ DecimalClaim ∧
    readText std0.isNumber std0.quote intKind (S "12abc") = some (.int 12) ∧
    readText std0.isNumber std0.quote intKind (S "010") = some (.int 8) ∧
    readText std0.isNumber std0.quote intKind (S "089") = some (.int 0) :=
  ⟨fun h => absurd (h (S "12abc") 12 (by decide +kernel)) (by decide +kernel),
    by decide +kernel, by decide +kernel, by decide +kernel⟩

end Verif.Rest.Serve
