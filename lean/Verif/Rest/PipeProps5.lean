import Verif.Rest.PipeProps4
/-!
# C216: when a request is answered with the page about an operation; C124, C126, C131 continued
-/
namespace Verif.Rest.Serve

open Verif.Rest Verif.Rest.Spec

variable {V C : Type}

private theorem dropPrefix_some {pat s : Str} : (dropPrefix pat s).isSome = true ↔ pat <+: s := by
  induction pat generalizing s with
  | nil => simp [dropPrefix]
  | cons p pat ih =>
    cases s with
    | nil => simp [dropPrefix]
    | cons c s =>
      rw [dropPrefix]
      by_cases h : p = c
      · rw [if_pos h, ih, h, List.cons_prefix_cons]; simp
      · rw [if_neg h, List.cons_prefix_cons]; simp [h]

private theorem contains_iff (s pat : Str) : contains s pat = true ↔ pat <:+: s := by
  induction s with
  | nil => simp [contains, eq_comm]
  | cons c s ih =>
    rw [contains, Bool.or_eq_true, dropPrefix_some, ih, List.infix_cons_iff]

/-- The request asks for the page: a GET whose Accept header mentions text/html, unless that is what the operation itself
answers, or any request whose Accept header mentions application/schema+json. -/
def AsksForPage (op : Op V) (rq : Request) : Prop :=
  (op.method = "GET".toList ∧ op.ctype ≠ "text/html".toList ∧ "text/html".toList <:+: rq.accept) ∨
    "application/schema+json".toList <:+: rq.accept

private theorem wantsPage_iff (op : Op V) (rq : Request) : wantsPage op rq = true ↔ AsksForPage op rq := by
  unfold wantsPage AsksForPage
  rw [Bool.or_eq_true, Bool.and_eq_true, Bool.and_eq_true, contains_iff, contains_iff, decide_eq_true_iff, decide_eq_true_iff]
  constructor
  · rintro (⟨⟨h1, h2⟩, h3⟩ | h)
    · exact .inl ⟨h2, h1, h3⟩
    · exact .inr h
  · rintro (⟨h1, h2, h3⟩ | h)
    · exact .inl ⟨⟨h2, h1⟩, h3⟩
    · exact .inr h

/-- C216: without an authenticator, a request whose arguments can be read calls the function just when it does not ask for the
page, and the page leaves everything else alone. -/
theorem page_or_call (env : Env V C) (ha : env.auth = none) (op : Op V) (rq : Request) (w : W) (args : Cells V)
    (hr : readArgs env.std env.codec op rq = .ok args) :
    (AsksForPage op rq → serveOp env op rq w = ([], some (env.page rq w))) ∧
    (¬ AsksForPage op rq → (serveOp env op rq w).1 = [.call env.ctx args]) := by
  unfold serveOp
  rw [ha]
  dsimp only
  unfold serveKnown
  constructor
  · intro h
    rw [if_pos ((wantsPage_iff op rq).mpr h)]
  · intro h
    rw [if_neg (fun e => h ((wantsPage_iff op rq).mp e)), hr]
    dsimp only
    unfold serveArgs
    rw [ha]
    rfl

/-- C216: with an authenticator, the page too is shown only to those it accepts. -/
theorem page_authenticated (env : Env V C) (a : Auth V C) (ha : env.auth = some a) (op : Op V) (rq : Request) (w : W)
    (h : AsksForPage op rq) :
    (∀ ctx e, a.authenticate rq = (ctx, some e) → serveOp env op rq w = ([.authenticate], handleW (a.redact ctx) env.scenarios e w)) ∧
    (∀ ctx, a.authenticate rq = (ctx, none) → serveOp env op rq w = ([.authenticate], some (env.page rq w))) := by
  constructor
  · intro ctx e he
    unfold serveOp
    rw [ha]
    dsimp only
    rw [he]
    dsimp only
    unfold Env.redact
    rw [ha]
  · intro ctx he
    unfold serveOp
    rw [ha]
    dsimp only
    rw [he]
    dsimp only
    unfold serveKnown
    rw [if_pos ((wantsPage_iff op rq).mpr h)]

private def S (s : String) : Str := s.toList

/-- The Accept header of a browser. -/
def browser : Str := S "text/html,application/xhtml+xml,*/*;q=0.8"

/-- A browser that follows a link to an operation sees the page, and one that posts a form gets the answer. -/
example : AsksForPage ({ op0 with method := S "GET" } : Op Val) { accepting "" with accept := browser } ∧
    ¬ AsksForPage ({ op0 with method := S "GET", ctype := S "text/html" } : Op Val) { accepting "" with accept := browser } ∧
    ¬ AsksForPage (op0 : Op Val) { accepting "" with accept := browser } := by
  refine ⟨(wantsPage_iff _ _).mp (by decide +kernel), fun h => ?_, fun h => ?_⟩
  · have := (wantsPage_iff _ _).mpr h
    revert this; decide +kernel
  · have := (wantsPage_iff _ _).mpr h
    revert this; decide +kernel

/-- C216, the full property: a program that prefers JSON gets the answer of the operation, even if it takes a page as well. -/
def PageClaim : Prop :=
  ∀ (op : Op Val) (rq : Request), op.ctype = "application/json".toList → op.params = [] →
    rq.accept = "application/json, text/html;q=0.1".toList → (serveOp env0 op rq {}).1 ≠ []

/-- C216 fails: the order and the qualities of the Accept header play no part. -/
theorem page_fails : ¬ PageClaim := by
  intro h
  refine h { op0 with method := S "GET" } { accepting "" with accept := S "application/json, text/html;q=0.1" } rfl rfl rfl ?_
  decide +kernel

/-! ## C124: no Accept header, or any type -/

/-- C124: a client that takes any type gets a result that is a struct, slice, map or array in JSON and any other as text. -/
theorem any_type_written (op : Op V) (encoder : Str → Encoder V) (redact : PErr → PErr) (scenarios : List Scen) (encodeErr : PErr)
    (accept : Str) (ha : accept = [] ∨ accept = "*/*".toList) (r : Result V) (w : W) (t : Str) (hw : w.sent = none) (hb : w.body = [])
    (hr : r.reader = none) (hs : r.status = none) (hrules : op.resRules = [])
    (he : (encoder (if r.composite then "application/json".toList else "text/plain".toList)).one r = some t) :
    ∃ w', (writeResultHeaders [r] w).bind (writeResults op encoder redact scenarios encodeErr accept [r]) = some w' ∧ w'.body = t ∧
      ∃ h, w'.sent = some (200, h) ∧
        h.get "Content-Type".toList = if r.composite then "application/json".toList else "text/plain".toList := by
  refine result_written op encoder redact scenarios encodeErr accept r w _ t hw hb hr hs hrules ?_ he
  unfold acceptFor
  rw [if_pos ha]
  dsimp only
  cases r.composite <;> decide +kernel

/-- An answer 7 to a client that takes any type. -/
example : ∃ w', (writeResultHeaders [{ value := Arg.one (Val.int 7) }] {}).bind (writeResults op0 env0.encoder id [] (argumentErr [])
      (S "*/*") [{ value := Arg.one (Val.int 7) }]) = some w' ∧ w'.body = S "7" ∧
      ∃ h, w'.sent = some (200, h) ∧ h.get "Content-Type".toList = S "text/plain" :=
  any_type_written op0 env0.encoder id [] (argumentErr []) _ (.inr rfl) { value := .one (.int 7) } {} (S "7") rfl rfl rfl rfl rfl
    (by decide +kernel)

/-! ## C126: streams that are refused -/

/-- C126: events are for GET and a channel in JSON for GET and POST; any other method is answered 405, and the stream is not read. -/
theorem stream_refused (fail : PErr → W → Option W) (enc : Item V → Option Str) (encAll : List (Item V) → Option Str) (encodeErr : PErr)
    (method accept : Str) (s : Stream V)
    (h : ("text/event-stream".toList <:+: accept ∧ method ≠ "GET".toList) ∨
      ((∃ vs, s = .chan vs) ∧ "application/json".toList <:+: accept ∧ method ≠ "GET".toList ∧ method ≠ "POST".toList)) :
    ∃ w' hd, serveStream fail enc encAll encodeErr method accept s {} = some w' ∧ w'.sent = some (405, hd) ∧
      w'.body ∈ ["method not allowed\n".toList, "method not allowed for channel endpoints\n".toList] := by
  have hm : ∃ m ∈ ["method not allowed".toList, "method not allowed for channel endpoints".toList],
      streamMode method accept s = .error (m, 405) := by
    unfold streamMode
    rcases h with ⟨h1, h2⟩ | ⟨⟨vs, rfl⟩, h1, h2, h3⟩
    · have h1 := (contains_iff _ _).mpr h1
      cases s with
      | chan vs =>
        dsimp only
        split
        · exact ⟨_, by simp, rfl⟩
        · exact ⟨_, by simp, rfl⟩
      | seq vs => dsimp only; rw [if_pos h1, if_pos h2]; exact ⟨_, by simp, rfl⟩
      | seq2 vs => dsimp only; rw [if_pos h1, if_pos h2]; exact ⟨_, by simp, rfl⟩
    · dsimp only
      rw [if_pos ⟨(contains_iff _ _).mpr h1, h2, h3⟩]
      exact ⟨_, by simp, rfl⟩
  obtain ⟨m, hmem, hm⟩ := hm
  unfold serveStream
  rw [hm]
  dsimp only
  refine ⟨_, _, rfl, rfl, ?_⟩
  have hb : m ++ ['\n'] ∈ ["method not allowed\n".toList, "method not allowed for channel endpoints\n".toList] := by
    simp only [List.mem_cons, List.not_mem_nil, or_false] at hmem
    rcases hmem with rfl | rfl
    · exact List.mem_cons_self ..
    · exact List.mem_cons_of_mem _ (List.mem_cons_self ..)
  exact hb

example : ∃ w' hd, serveStream (fun _ w => some w) (fun _ => none) (fun _ => none) (argumentErr []) (S "PUT") (S "application/json")
    (.chan [Val.int 1]) {} = some w' ∧ w'.sent = some (405, hd) ∧
      w'.body ∈ ["method not allowed\n".toList, "method not allowed for channel endpoints\n".toList] :=
  stream_refused _ _ _ _ _ _ _ (.inr ⟨⟨_, rfl⟩, (contains_iff _ _).mp (by decide +kernel), by decide, by decide⟩)

/-! ## Errors -/

private theorem get_filter (h : Hdr) (k : Str) : Hdr.get (h.filter (fun e => e.1 ≠ k)) k = [] := by
  unfold Hdr.get
  have : (h.filter (fun e => decide (e.1 ≠ k))).find? (fun e => decide (e.1 = k)) = none := by
    rw [List.find?_eq_none]
    intro x hx
    simpa using (List.mem_filter.mp hx).2
  rw [this]; rfl

/-- An error that is not JSON is answered as plain text with its status; a length that its own headers claimed is not sent. A status
outside 100 to 999 makes the handler panic. -/
theorem error_written (redact : PErr → PErr) (scenarios : List Scen) (err : PErr) (w : W) (hw : w.sent = none) (hb : w.body = [])
    (hj : (redact err).json = none) (s : Nat) (m : Str) (hh : handleErr id scenarios (redact err).base = (s, m)) :
    (handleW redact scenarios err w = none ↔ s < 100 ∨ 999 < s) ∧
    ∀ w', handleW redact scenarios err w = some w' → ∃ h, w'.sent = some (if s < 200 ∧ s ≠ 101 then 200 else s, h) ∧
      h.get "Content-Length".toList = [] ∧ h.get "Content-Type".toList = "text/plain; charset=utf-8".toList ∧
      w'.body = if s = 204 ∨ s = 304 ∨ s = 101 then [] else m ++ ['\n'] := by
  unfold handleW
  dsimp only
  rw [hj]
  dsimp only
  rw [hh]
  dsimp only
  unfold W.error W.writeHeader
  dsimp only
  rw [hw]
  dsimp only
  have hlen : ∀ l : Hdr, Hdr.get (Hdr.put (Hdr.put (l.filter (fun e => e.1 ≠ "Content-Length".toList)) "Content-Type".toList
      "text/plain; charset=utf-8".toList) "X-Content-Type-Options".toList "nosniff".toList) "Content-Length".toList = [] := by
    intro l
    rw [get_put_ne _ _ _ _ (by decide), get_put_ne _ _ _ _ (by decide), get_filter]
  have htyp : ∀ l : Hdr, Hdr.get (Hdr.put (Hdr.put l "Content-Type".toList
      "text/plain; charset=utf-8".toList) "X-Content-Type-Options".toList "nosniff".toList) "Content-Type".toList =
      "text/plain; charset=utf-8".toList := by
    intro l
    rw [get_put_ne _ _ _ _ (by decide), get_put]
  by_cases h : s < 100 ∨ 999 < s
  · rw [if_pos h]
    exact ⟨⟨fun _ => h, fun _ => rfl⟩, fun w' hw' => by cases hw'⟩
  · rw [if_neg h]
    constructor
    · constructor
      · intro e
        split at e <;> cases e
      · intro e; exact absurd e h
    · intro w' hw'
      by_cases hc : s < 200 ∧ s ≠ 101
      · rw [if_pos hc] at hw'
        have := Option.some.inj hw'
        subst this
        rw [if_pos hc, if_neg (by omega)]
        unfold W.write
        dsimp only
        refine ⟨_, rfl, hlen _, htyp _, ?_⟩
        dsimp only [Option.getD_none]
        rw [if_neg (by omega), hb]; rfl
      · rw [if_neg hc] at hw'
        have := Option.some.inj hw'
        subst this
        rw [if_neg hc]
        unfold W.write
        dsimp only [Option.getD_some]
        refine ⟨_, rfl, hlen _, htyp _, ?_⟩
        rw [hb]; rfl

example : (handleW id [] ⟨⟨S "taken", some 409, false⟩, [(S "Content-Length", S "3"), (S "X", S "y")], none⟩ {}).map
    (fun w => (w.sent.map Prod.fst, w.body)) = some (some 409, S "taken\n") := by decide +kernel

/-- C120: a preflight of any path with operations is answered without the authenticator, unless OPTIONS is an operation of its own. -/
theorem preflight_open (examples : Bool) (rs : List Resource) (hp : (rs.map Resource.path).Nodup) (r : Resource) (hr : r ∈ rs)
    (hd : r.methods.Nodup) (ho : mOptions ∉ r.methods) :
    ∃ h, inForce (registrations examples rs) mOptions r.path = some h ∧ h.authenticates = false := by
  have := handlers_partial examples rs hp r hr hd mOptions (fun _ h => ho h.2) (Or.inr (Or.inl rfl))
  rw [if_neg ho] at this
  split at this
  · exact ⟨_, this, rfl⟩
  · exact ⟨_, this, rfl⟩

end Verif.Rest.Serve
