import Verif.Rest.ListSpec
import Verif.Rest.ServeFails
/-!
# C214: arguments are what the request says

For every operation and every request, of whatever client.
-/
namespace Verif.Rest.Serve

open Verif.Rest Verif.Rest.Spec ListSpec

variable {V : Type}

private theorem queried_eq (rq : Request) (n : Str) : valuesOf rq.query n = queried rq n := rfl

private theorem readText_some {std : Std} {k : Kind V} {s : Str} {v : V} :
    readText std.isNumber std.quote k s = some v ↔ Reads std k s v := by
  unfold readText
  cases h0 : k.setString with
  | some f =>
    constructor
    · intro e; exact .set f h0 (Option.some.inj e).symm
    · intro h
      cases h with
      | set f' h e => rw [h0] at h; injection h with h; subst h; rw [e]
      | text f' h => rw [h0] at h; cases h
      | bare f' h => rw [h0] at h; cases h
      | quoted f' h => rw [h0] at h; cases h
      | scan h => rw [h0] at h; cases h
  | none =>
    cases h1 : k.unText with
    | some f =>
      constructor
      · intro e; exact .text f h0 h1 e
      · intro h
        cases h with
        | set f' h e => rw [h0] at h; cases h
        | text f' _ h e => rw [h1] at h; injection h with h; subst h; exact e
        | bare f' _ h => rw [h1] at h; cases h
        | quoted f' _ h => rw [h1] at h; cases h
        | scan _ h => rw [h1] at h; cases h
    | none =>
      cases h2 : k.unJSON with
      | some f =>
        dsimp only
        by_cases hb : std.isNumber s = true ∨ s = "true".toList ∨ s = "false".toList
        · rw [if_pos hb]
          cases hf : f s with
          | some w =>
            constructor
            · intro e; rw [← Option.some.inj e]; exact .bare f h0 h1 h2 hb hf
            · intro h
              cases h with
              | set f' h e => rw [h0] at h; cases h
              | text f' _ h e => rw [h1] at h; cases h
              | bare f' _ _ h _ e => rw [h2] at h; injection h with h; subst h; rw [← hf, e]
              | quoted f' _ _ h hn => rw [h2] at h; injection h with h; subst h; rw [hn hb] at hf; cases hf
              | scan _ _ h => rw [h2] at h; cases h
          | none =>
            constructor
            · intro e; exact .quoted f h0 h1 h2 (fun _ => hf) e
            · intro h
              cases h with
              | set f' h e => rw [h0] at h; cases h
              | text f' _ h e => rw [h1] at h; cases h
              | bare f' _ _ h _ e => rw [h2] at h; injection h with h; subst h; rw [hf] at e; cases e
              | quoted f' _ _ h _ e => rw [h2] at h; injection h with h; subst h; exact e
              | scan _ _ h => rw [h2] at h; cases h
        · rw [if_neg hb]
          constructor
          · intro e; exact .quoted f h0 h1 h2 (fun h => absurd h hb) e
          · intro h
            cases h with
            | set f' h e => rw [h0] at h; cases h
            | text f' _ h e => rw [h1] at h; cases h
            | bare f' _ _ h hb' e => exact absurd hb' hb
            | quoted f' _ _ h _ e => rw [h2] at h; injection h with h; subst h; exact e
            | scan _ _ h => rw [h2] at h; cases h
      | none =>
        constructor
        · intro e; exact .scan h0 h1 h2 e
        · intro h
          cases h with
          | set f' h e => rw [h0] at h; cases h
          | text f' _ h e => rw [h1] at h; cases h
          | bare f' _ _ h _ e => rw [h2] at h; cases h
          | quoted f' _ _ h _ e => rw [h2] at h; cases h
          | scan _ _ _ e => exact e

private theorem means_iff {std : Std} {k : Kind V} {s : Str} {v : V} :
    (if s = [] then some k.zero else readText std.isNumber std.quote k s) = some v ↔ Means std k s v := by
  by_cases h : s = []
  · subst h
    rw [if_pos rfl]
    constructor
    · intro e; exact .inl ⟨rfl, (Option.some.inj e).symm⟩
    · rintro (⟨_, e⟩ | ⟨e, _⟩)
      · rw [e]
      · exact absurd rfl e
  · rw [if_neg h, readText_some]
    constructor
    · intro e; exact .inr ⟨h, e⟩
    · rintro (⟨e, _⟩ | ⟨_, e⟩)
      · exact absurd e h
      · exact e

private theorem readElems_ok {std : Std} {k : Kind V} : ∀ {ss : List Str} {vs : List V},
    readElems std k ss = .ok vs ↔ List.Forall₂ (Means std k) ss vs
  | [], vs => by
    unfold readElems
    constructor
    · intro h; injection h with h; subst h; exact .nil
    · intro h; cases h; rfl
  | s :: ss, vs => by
    rw [readElems]
    cases hm : (if s = [] then some k.zero else readText std.isNumber std.quote k s) with
    | none =>
      constructor
      · intro h; cases h
      · intro h
        cases h with
        | cons h _ => rw [means_iff.mpr h] at hm; cases hm
    | some v =>
      dsimp only
      constructor
      · intro h
        cases hr : readElems std k ss with
        | ok ws =>
          rw [hr] at h
          injection h with h
          subst h
          exact .cons (means_iff.mp hm) (readElems_ok.mp hr)
        | fail m => rw [hr] at h; cases h
        | status m => rw [hr] at h; cases h
        | panic => rw [hr] at h; cases h
      · intro h
        cases h with
        | cons h h' =>
          rw [readElems_ok.mpr h']
          have := means_iff.mpr h
          rw [hm] at this
          injection this with this
          subst this; rfl

private theorem headD_nil {l : List Str} : l.headD [] = [] ↔ ∀ s rest, l = s :: rest → s = [] := by
  cases l with
  | nil => simp
  | cons a l => simp

private theorem paramText_iff {rq : Request} {p : Prm V} (ho : Outside p) {s : Str} : paramText p rq = s ↔ TextOf rq p s := by
  obtain ⟨n, sh, loc, i⟩ := p
  cases loc with
  | void => exact absurd rfl ho.1
  | «at» a b =>
    unfold paramText
    dsimp only
    have hq : getValue rq.query n = (queried rq n).headD [] := rfl
    rw [hq]
    cases b with
    | false =>
      cases a with
      | false => exact absurd rfl ho.2
      | true =>
        constructor
        · intro e; subst e; exact .path false rfl (by intro h; cases h)
        · intro h
          cases h with
          | query b s rest hl => simp at hl
          | path => rfl
          | missing hl => simp at hl
    | true =>
      by_cases h : (queried rq n).headD [] = []
      · simp only [if_pos h, if_true]
        rw [headD_nil] at h
        constructor
        · intro e
          subst e
          cases a with
          | true => exact .path true rfl (fun _ => h)
          | false => exact .missing rfl h
        · intro e
          cases e with
          | query b s rest hl h' hs => exact absurd (h _ _ h') hs
          | path b hl => simp at hl; obtain ⟨rfl, _⟩ := hl; rfl
          | missing hl => simp at hl; obtain rfl := hl; rfl
      · simp only [if_neg h, if_true]
        constructor
        · intro e
          cases hl : queried rq n with
          | nil => rw [hl] at h; exact absurd rfl h
          | cons t rest =>
            rw [hl] at e h
            have e' : t = s := e
            subst e'
            exact .query a t rest rfl hl h
        · intro e
          cases e with
          | query b s rest hl h' hs => rw [show queried rq n = s :: rest from h']; rfl
          | path b hl h' =>
            simp at hl
            obtain ⟨_, rfl⟩ := hl
            exact absurd (headD_nil.mpr (h' rfl)) h
          | missing hl h' => exact absurd (headD_nil.mpr h') h

private theorem readPlain_ok {std : Std} {rq : Request} {p : Prm V} (ho : Outside p) (hp : Plain rq p) {a : Arg V} :
    readPlain std p rq = .ok a ↔ Says std rq p a := by
  unfold readPlain
  rcases hp with ⟨k, hk⟩ | ⟨⟨k, hk⟩, ⟨b, hl⟩, hlen⟩
  · rw [hk]
    dsimp only
    have key : ∀ v, Means std k (paramText p rq) v → Says std rq p (.one v) :=
      fun v hm => .one k _ v hk ((paramText_iff ho).mp rfl) hm
    constructor
    · intro h
      split at h
      · next e =>
        injection h with h
        subst h
        exact key _ (.inl ⟨e, rfl⟩)
      · next e =>
        split at h
        · next v hv =>
          injection h with h
          subst h
          exact key _ (.inr ⟨e, readText_some.mp hv⟩)
        · cases h
    · intro h
      cases h with
      | many k' b vs hs => rw [hk] at hs; cases hs
      | one k' s v hs ht hm =>
        rw [hk] at hs
        injection hs with hs
        subst hs
        rw [(paramText_iff ho).mpr ht]
        rcases hm with ⟨e, hv⟩ | ⟨e, hv⟩
        · rw [if_pos e, hv]
        · rw [if_neg e, readText_some.mpr hv]
  · rw [hk]
    dsimp only
    rw [hl]
    dsimp only
    rw [queried_eq]
    generalize hq : queried rq (p.name ++ "[]".toList) = q at hlen ⊢
    constructor
    · intro h
      split at h
      · next e =>
        injection h with h
        subst h
        refine .many k b [] hk hl ?_
        rw [hq, List.length_eq_zero_iff.mp e]
        exact .nil
      · cases hr : readElems std k q with
        | ok vs =>
          rw [hr] at h
          injection h with h
          subst h
          exact .many k b vs hk hl (hq ▸ readElems_ok.mp hr)
        | fail m => rw [hr] at h; cases h
        | status m => rw [hr] at h; cases h
        | panic => rw [hr] at h; cases h
    · intro h
      cases h with
      | one k' s v hs => rw [hk] at hs; cases hs
      | many k' b' vs hs _ hm =>
        rw [hk] at hs
        injection hs with hs
        subst hs
        rw [hq] at hm
        split
        · next e =>
          rw [List.length_eq_zero_iff.mp e] at hm
          cases hm; rfl
        · rw [readElems_ok.mpr hm]; rfl

private theorem bind_ok {α β : Type} {s : Step α} {f : α → Step β} {b : β} (h : s.bind f = .ok b) :
    ∃ a, s = .ok a ∧ f a = .ok b := by
  cases s with
  | ok a => exact ⟨a, rfl, h⟩
  | fail m => cases h
  | status m => cases h
  | panic => cases h

private theorem readParam_cells {std : Std} {codec : Str → Codec V} {mapping : Bool} {ct : Str} {rq : Request} {p : Prm V}
    {st st' : Reading V} (h : readParam std codec mapping ct rq p st = .ok st') :
    (p.loc = .void ∧ st'.cells = st.cells) ∨ (p.loc ≠ .void ∧ ∃ a, st'.cells = setCell st.cells p.index a ∧
      (Outside p → readPlain std p rq = .ok a)) := by
  unfold readParam at h
  split at h
  · next e => injection h with h; subst h; exact .inl ⟨e, rfl⟩
  · next e =>
    refine .inr ⟨e, ?_⟩
    split at h
    · next eb =>
      have hno : ¬ Outside p := fun ho => ho.2 eb
      split at h
      · split at h
        · injection h with h
          subst h
          exact ⟨_, rfl, fun ho => absurd ho hno⟩
        · cases h
      · obtain ⟨⟨a, rest⟩, _, h⟩ := bind_ok h
        injection h with h
        subst h
        exact ⟨_, rfl, fun ho => absurd ho hno⟩
    · obtain ⟨a, ha, h⟩ := bind_ok h
      injection h with h
      subst h
      exact ⟨a, rfl, fun _ => ha⟩

private theorem readParams_keep {std : Std} {codec : Str → Codec V} {mapping : Bool} {ct : Str} {rq : Request} {i : List Nat} :
    ∀ {ps : List (Prm V)} {st st' : Reading V}, readParams std codec mapping ct rq ps st = .ok st' →
      (∀ p ∈ ps, p.loc ≠ .void → p.index ≠ i) → st'.cells i = st.cells i
  | [], st, st', h, _ => by rw [readParams] at h; injection h with h; rw [h]
  | p :: ps, st, st', h, hi => by
    rw [readParams] at h
    obtain ⟨m, h1, h2⟩ := bind_ok h
    rw [readParams_keep h2 (fun q hq => hi q (List.mem_cons_of_mem _ hq))]
    rcases readParam_cells h1 with ⟨_, e⟩ | ⟨hv, a, e, _⟩
    · rw [e]
    · rw [e, setCell, if_neg (fun e => hi p (List.mem_cons_self ..) hv e.symm)]

private theorem readParams_cells {std : Std} {codec : Str → Codec V} {mapping : Bool} {ct : Str} {rq : Request} :
    ∀ {ps : List (Prm V)} {st st' : Reading V}, readParams std codec mapping ct rq ps st = .ok st' →
      (ps.filter (fun p => p.loc ≠ .void)).Pairwise (fun p q => p.index ≠ q.index) →
      ∀ p ∈ ps, Outside p → readPlain std p rq = .ok (st'.cells p.index)
  | [], _, _, _, _, p, hp, _ => by simp at hp
  | q :: ps, st, st', h, hd, p, hp, ho => by
    rw [readParams] at h
    obtain ⟨m, h1, h2⟩ := bind_ok h
    rcases List.mem_cons.mp hp with rfl | hp
    · rw [List.filter_cons_of_pos (by simpa using ho.1), List.pairwise_cons] at hd
      rw [readParams_keep h2 (fun q hq hv => (hd.1 q (List.mem_filter.mpr ⟨hq, by simpa using hv⟩)).symm)]
      rcases readParam_cells h1 with ⟨e, _⟩ | ⟨_, a, e, hr⟩
      · exact absurd e ho.1
      · rw [e, hr ho, setCell, if_pos rfl]
    · exact readParams_cells h2 (hd.sublist (by
        rw [List.filter_cons]; split
        · exact List.sublist_cons_self _ _
        · exact List.Sublist.refl _)) p hp ho

/-- C214, what holds: for every operation and request, the arguments outside the body that the function is called with are what
the request says. -/
theorem arguments_as_requested_partial (std : Std) (codec : Str → Codec V) (op : Op V) (rq : Request) (cells : Cells V)
    (hd : (op.params.filter (fun p => p.loc ≠ .void)).Pairwise (fun p q => p.index ≠ q.index))
    (h : readArgs std codec op rq = .ok cells) (p : Prm V) (hp : p ∈ op.params) (ho : Outside p) (hpl : Plain rq p) :
    Says std rq p (cells p.index) := by
  unfold readArgs at h
  obtain ⟨m, _, h⟩ := bind_ok h
  obtain ⟨st, h1, h⟩ := bind_ok h
  injection h with h
  subst h
  exact (readPlain_ok ho hpl).mp (readParams_cells h1 hd p hp ho)

/-- C214: a request in which some argument outside the body says nothing is answered without calling the function. -/
theorem unreadable_refused_partial (std : Std) (codec : Str → Codec V) (op : Op V) (rq : Request)
    (hd : (op.params.filter (fun p => p.loc ≠ .void)).Pairwise (fun p q => p.index ≠ q.index))
    (p : Prm V) (hp : p ∈ op.params) (ho : Outside p) (hpl : Plain rq p) (hn : ∀ a, ¬ Says std rq p a) (cells : Cells V) :
    readArgs std codec op rq ≠ .ok cells :=
  fun h => hn _ (arguments_as_requested_partial std codec op rq cells hd h p hp ho hpl)

/-- C214: what a request says is one value at most. -/
theorem says_unique (std : Std) (rq : Request) (p : Prm V) (ho : Outside p) (hpl : Plain rq p) (a b : Arg V)
    (ha : Says std rq p a) (hb : Says std rq p b) : a = b := by
  have h1 := (readPlain_ok ho hpl).mpr ha
  rw [(readPlain_ok ho hpl).mpr hb] at h1
  injection h1 with h1
  exact h1.symm

private theorem readParams_unknown {std : Std} {codec : Str → Codec V} {ct : Str} {rq : Request} (hc : ct ∉ contentTypes) :
    ∀ (ps : List (Prm V)) (st : Reading V), (∀ p ∈ ps, Outside p → ∃ a, readPlain std p rq = .ok a) →
      (∃ p ∈ ps, p.loc = .at false false) → readParams std codec false ct rq ps st = .status 422
  | [], _, _, h => by simp at h
  | q :: ps, st, hr, hb => by
    rw [readParams]
    by_cases hv : q.loc = .void
    · have : readParam std codec false ct rq q st = .ok st := by rw [readParam, if_pos hv]
      rw [this]
      refine readParams_unknown hc ps st (fun p hp => hr p (List.mem_cons_of_mem _ hp)) ?_
      obtain ⟨p, hp, e⟩ := hb
      rcases List.mem_cons.mp hp with rfl | hp
      · rw [hv] at e; cases e
      · exact ⟨p, hp, e⟩
    · by_cases hq : q.loc = .at false false
      · have : readParam std codec false ct rq q st = .status 422 := by
          rw [readParam, if_neg hv, if_pos (show q.loc = Loc.body from hq), if_neg (by simp)]
          unfold decodeBody
          rw [if_pos hc]; rfl
        rw [this]; rfl
      · obtain ⟨a, ha⟩ := hr q (List.mem_cons_self ..) ⟨hv, hq⟩
        have : readParam std codec false ct rq q st = .ok { st with cells := setCell st.cells q.index a } := by
          rw [readParam, if_neg hv, if_neg (show ¬ q.loc = Loc.body from hq), ha]; rfl
        rw [this]
        refine readParams_unknown hc ps _ (fun p hp => hr p (List.mem_cons_of_mem _ hp)) ?_
        obtain ⟨p, hp, e⟩ := hb
        rcases List.mem_cons.mp hp with rfl | hp
        · exact absurd e hq
        · exact ⟨p, hp, e⟩

/-- C214: a body of a content type the host does not know is refused with 422, if the operation has arguments in it. -/
theorem unknown_type_refused_partial (std : Std) (codec : Str → Codec V) (op : Op V) (rq : Request)
    (hc : requestType op rq ∉ contentTypes) (hb : op.argRules ≠ [] ∨ ∃ p ∈ op.params, p.loc = .at false false)
    (hr : op.argRules = [] → ∀ p ∈ op.params, Outside p → Plain rq p ∧ ∃ a, Says std rq p a) :
    readArgs std codec op rq = .status 422 := by
  unfold readArgs
  by_cases hn : op.argRules = []
  · have h1 : readMapped codec op (requestType op rq) rq = .ok [] := by rw [readMapped, if_pos hn]
    rw [h1]
    have h2 : decide (op.argRules ≠ []) = false := by simp [hn]
    rw [h2]
    show (readParams std codec false (requestType op rq) rq op.params _).bind _ = _
    rw [readParams_unknown hc op.params _ (fun p hp ho => by
      obtain ⟨hpl, a, ha⟩ := hr hn p hp ho
      exact ⟨a, (readPlain_ok ho hpl).mpr ha⟩) (hb.resolve_left (fun h => h hn))]
    rfl
  · have h1 : readMapped codec op (requestType op rq) rq = .status 422 := by rw [readMapped, if_neg hn, if_pos hc]
    rw [h1]; rfl

/-! ## Instances -/

private def S (s : String) : Str := s.toList

/-- `GET /list?id=%v` with a list of integers and a page. -/
def listOp : Op Val where
  method := S "GET"
  path := S "/list"
  params := [⟨S "id", .slice intKind, .at false true, [0]⟩, ⟨S "page", .one strKind, .at false true, [1]⟩]

/-- A request for it. -/
def listRq (q : List (Str × Str)) : Request := { mux := { method := S "GET", path := S "/list" }, query := q }

/-- What the handler reads. -/
def listRead (q : List (Str × Str)) : Option (List (Arg Val)) :=
  match readArgs std0 (fun _ => toy) listOp (listRq q) with
  | .ok cells => some [cells [0], cells [1]]
  | _ => none

/-- A list of three, with an empty item, is read in order. -/
example : listRead [(S "id[]", S "3"), (S "page", S "x"), (S "id[]", []), (S "id[]", S "-1")] =
    some [.many [.int 3, .int 0, .int (-1)], .one (.str (S "x"))] := by decide +kernel

/-- No list is the empty list. -/
example : listRead [(S "page", S "x")] = some [.many [], .one (.str (S "x"))] := by decide +kernel

/-- An item that is no number is refused. -/
example : listRead [(S "id[]", S "3"), (S "id[]", S "x")] = none := by decide +kernel

/-- The hypotheses of the theorems are met. -/
example : ∀ p ∈ listOp.params, Outside p ∧ Plain (listRq [(S "id[]", S "3"), (S "id[]", S "x")]) p := by
  intro p hp
  simp only [listOp, List.mem_cons, List.not_mem_nil, or_false] at hp
  rcases hp with rfl | rfl
  · exact ⟨⟨by simp, by simp⟩, .inr ⟨⟨_, rfl⟩, ⟨_, rfl⟩, by decide⟩⟩
  · exact ⟨⟨by simp, by simp⟩, .inl ⟨_, rfl⟩⟩

/-- A type nobody knows is refused. -/
example : requestType (inBodyOp "POST" [.one intKind]) { listRq [] with ctype := S "application/yaml" } ∉ contentTypes := by
  decide +kernel

/-- C214, the full property for lists. -/
def ListsClaim : Prop :=
  ∀ (op : Op Val) (rq : Request) (cells : Cells Val),
    (op.params.filter (fun p => p.loc ≠ .void)).Pairwise (fun p q => p.index ≠ q.index) →
    readArgs std0 (fun _ => toy) op rq = .ok cells →
    ∀ p ∈ op.params, Outside p → (∃ k, p.shape = .slice k) → (∃ b, p.loc = .at b true) → Says std0 rq p (cells p.index)

/-- A list of one is read as a list of the zero value, whatever its item. -/
theorem lists_of_one (s : Str) :
    listRead [(S "id[]", s)] = some [.many [.int 0], .one (.str [])] := by
  have h : ∀ n, n = S "id" ∨ n = S "page" → valuesOf [(S "id[]", s)] n = [] := by
    intro n hn
    rcases hn with rfl | rfl <;> rfl
  rfl

/-- C214: lists of one are lost. -/
theorem lists_fails : ¬ ListsClaim := by
  intro h
  obtain ⟨cells, hc⟩ : ∃ cells, readArgs std0 (fun _ => toy) listOp (listRq [(S "id[]", S "7")]) = .ok cells ∧
      cells [0] = .many [.int 0] := ⟨_, rfl, rfl⟩
  have := h listOp (listRq [(S "id[]", S "7")]) cells (by
    show List.Pairwise _ listOp.params
    simp [listOp]) hc.1 _ (List.mem_cons_self ..) ⟨by simp, by simp⟩ ⟨_, rfl⟩ ⟨_, rfl⟩
  dsimp only at this
  rw [hc.2] at this
  generalize ha : Arg.many [Val.int 0] = a at this
  cases this with
  | one => cases ha
  | many k b vs hs hl hm =>
    injection hs with hs
    subst hs
    injection ha with ha
    subst ha
    have hq : queried (listRq [(S "id[]", S "7")]) (S "id" ++ "[]".toList) = [S "7"] := by decide
    have hm' : List.Forall₂ (Means std0 intKind) [S "7"] [Val.int 0] := hq ▸ hm
    cases hm' with
    | cons h _ =>
      have := means_iff.mpr h
      revert this
      decide +kernel

end Verif.Rest.Serve
