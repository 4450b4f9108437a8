import Verif.Api.AnswerModel
import Verif.Api.TagProps
import Verif.Rest.ParseLemmas
/-!
# C236: errors of registered cases are answered as they are declared
-/
namespace Verif.Api.Answer
open Verif.Api Verif.Api.Tag

/-! ## Specification -/

/-- A tag as the conventions have it: pairs, and perhaps a newline with lines of documentation after it, the first of
which is indented by some tabs. -/
structure CaseTag where
  pairs : List Pair
  spaces : Nat
  /-- How far it is indented, its first line, and the others. -/
  docs : Option (Nat × Str × List Str)

/-- How the tag is written. -/
def CaseTag.tag (t : CaseTag) : Str :=
  written t.pairs ++ List.replicate t.spaces ' ' ++
    match t.docs with
    | none => []
    | some (n, first, more) => '\n' :: unlines ((List.replicate n '\t' ++ first) :: more)

/-- What it documents: the lines, without their indentation. -/
def CaseTag.text (t : CaseTag) : Str :=
  match t.docs with
  | none => []
  | some (n, first, more) => unlines (first :: more.map (dedent n))

/-- It is one: the keys and values are good, and the documentation is in one place only. -/
structure CaseTag.Good (t : CaseTag) : Prop where
  pairs : IsTag t.pairs
  lines : ∀ n first more, t.docs = some (n, first, more) →
    first.head? ≠ some '\t' ∧ '\n' ∉ first ∧ ∀ l ∈ more, '\n' ∉ l
  plain : t.docs = none → ∀ p ∈ t.pairs, p.key ≠ "docs".toList

/-- The tag says a status: its `http` key has a number, in digits. -/
def CaseTag.Says (unquote : Str → Option Str) (t : CaseTag) (n : Nat) : Prop :=
  ∃ v s, First "http".toList t.pairs v ∧ unquote v = some s ∧ s ≠ [] ∧ (∀ c ∈ s, '0' ≤ c ∧ c ≤ '9') ∧ Rest.Spec.decVal s = n

/-- The tag has no `http` key. -/
def CaseTag.Silent (t : CaseTag) : Prop := ∀ p ∈ t.pairs, p.key ≠ "http".toList

/-- The error is a value of the case, or wraps one, one error at a time. -/
inductive Reaches (u i : Nat) : Err → Prop
  | bare : Reaches u i (.bare u i)
  | case (held : Err) : Reaches u i (.case u i held)
  | wrap (before after : Str) (e : Err) : Reaches u i e → Reaches u i (.wrap before after e)

/-- The error is a value of the case, or wraps or joins one. -/
inductive Holds (u i : Nat) : Err → Prop
  | bare : Holds u i (.bare u i)
  | case (held : Err) : Holds u i (.case u i held)
  | wrap (before after : Str) (e : Err) : Holds u i e → Holds u i (.wrap before after e)
  | left (a b : Err) : Holds u i a → Holds u i (.join a b)
  | right (a b : Err) : Holds u i b → Holds u i (.join a b)

/-- The API registers the error type. -/
def Registered (regs : List Reg) (u : Nat) : Prop := ∃ r ∈ regs, r.errors = true ∧ r.type = some u

/-! ## Lemmas -/

theorem exists_mem_cons' {α : Type} {p : α → Prop} {a : α} {l : List α} :
    (∃ x ∈ a :: l, p x) ↔ p a ∨ ∃ x ∈ l, p x := by simp

theorem mem_casesFrom (unquote : Str → Option Str) (kind : Str) (u : Nat) (s : Scenario) : ∀ (cs : List Case) (i : Nat),
    s ∈ casesFrom unquote kind u i cs ↔ ∃ j c, cs[j]? = some c ∧
      s = ⟨c.name, kind, docsOf unquote (.mk c.tag none), c.tag, u, i + j⟩
  | [], i => by simp [casesFrom]
  | c :: cs, i => by
    unfold casesFrom
    rw [List.mem_cons, mem_casesFrom unquote kind u s cs (i + 1)]
    constructor
    · rintro (rfl | ⟨j, c', h, rfl⟩)
      · exact ⟨0, c, rfl, rfl⟩
      · exact ⟨j + 1, c', by simpa using h, by rw [Nat.add_assoc, Nat.add_comm 1 j]⟩
    · rintro ⟨j, c', h, rfl⟩
      cases j with
      | zero => simp at h; subst h; exact .inl rfl
      | succ j => exact .inr ⟨j, c', by simpa using h, by rw [Nat.add_assoc, Nat.add_comm 1 j]⟩

/-- **C236.** The scenarios are one for each case of each error type that is registered as errors, with its name, tags and
documentation and the name of the field that registers it, and no others. -/
theorem scenarios_listed (unquote : Str → Option Str) (types : Types) (s : Scenario) : ∀ (regs : List Reg),
    s ∈ scenarios unquote types regs ↔ ∃ r ∈ regs, r.errors = true ∧ r.type = some s.type ∧ s.kind = r.field ∧
      ∃ c, (types s.type)[s.pos]? = some c ∧ s.name = c.name ∧ s.tags = c.tag ∧
        s.text = docsOf unquote (.mk c.tag none)
  | [] => by simp [scenarios]
  | r :: rs => by
    unfold scenarios
    rw [List.mem_append, scenarios_listed unquote types s rs, exists_mem_cons']
    refine or_congr ?_ Iff.rfl
    obtain ⟨f, e, u⟩ := r
    match e, u with
    | false, _ => simp
    | true, none => simp
    | true, some u =>
      simp only [mem_casesFrom, Nat.zero_add, true_and, Option.some.injEq]
      constructor
      · rintro ⟨j, c, h, rfl⟩
        exact ⟨rfl, rfl, c, h, rfl, rfl, rfl⟩
      · rintro ⟨h1, h2, c, h3, h4, h5, h6⟩
        subst h1
        refine ⟨s.pos, c, h3, ?_⟩
        obtain ⟨a, b, c', d, e', f'⟩ := s
        simp only at h2 h4 h5 h6
        subst h2 h4 h5 h6; rfl

/-- The test of a scenario accepts the errors that are its case, or wrap it, and no others. -/
theorem test_iff (s : Scenario) (e : Err) : accepts s e = true ↔ Reaches s.type s.pos e := by
  induction e with
  | bare u i =>
    refine ⟨fun h => ?_, fun h => ?_⟩
    · simp [accepts] at h; obtain ⟨rfl, rfl⟩ := h; exact .bare
    · cases h; simp [accepts]
  | case u i held _ =>
    refine ⟨fun h => ?_, fun h => ?_⟩
    · simp [accepts] at h; obtain ⟨rfl, rfl⟩ := h; exact .case _
    · cases h; simp [accepts]
  | wrap b a e ih =>
    refine ⟨fun h => .wrap _ _ _ (ih.mp h), fun h => ?_⟩
    cases h with
    | wrap _ _ _ h => exact ih.mpr h
  | plain => exact ⟨fun h => (nomatch h), fun h => (nomatch h)⟩
  | notImplemented => exact ⟨fun h => (nomatch h), fun h => (nomatch h)⟩
  | coded => exact ⟨fun h => (nomatch h), fun h => (nomatch h)⟩
  | join => exact ⟨fun h => (nomatch h), fun h => (nomatch h)⟩
  | empty => exact ⟨fun h => (nomatch h), fun h => (nomatch h)⟩

/-- An error is of one case at most. -/
theorem one_case {u i v j : Nat} {e : Err} (h : Reaches u i e) (h' : Reaches v j e) : u = v ∧ i = j := by
  induction h with
  | bare => cases h'; exact ⟨rfl, rfl⟩
  | case => cases h'; exact ⟨rfl, rfl⟩
  | wrap b a e _ ih => cases h' with | wrap _ _ _ h' => exact ih h'

theorem reaches_plain {u i : Nat} {e : Err} (h : Reaches u i e) : isNotImplemented e = false := by
  induction h with
  | bare => rfl
  | case => rfl
  | wrap b a e _ ih => exact ih

theorem http_key : (['h', 't', 't', 'p'] : Str) = "http".toList := by decide +kernel
theorem docs_key : (['d', 'o', 'c', 's'] : Str) = "docs".toList := by decide +kernel

theorem tag_rest (t : CaseTag) : ∃ r, IsRest r ∧ t.tag = written t.pairs ++ r := by
  unfold CaseTag.tag
  cases t.docs with
  | none => exact ⟨_, .spaces t.spaces, by simp⟩
  | some d => exact ⟨_, .text t.spaces _, by rw [List.append_assoc]⟩

theorem says_lookup {unquote : Str → Option Str} {t : CaseTag} (hg : t.Good) {v : Str}
    (h : First "http".toList t.pairs v) : lookup unquote ['h', 't', 't', 'p'] t.tag = unquote v := by
  obtain ⟨r, hr, e⟩ := tag_rest t
  rw [e, http_key]
  exact key_is_read unquote t.pairs r _ v hg.pairs hr h

theorem silent_lookup {unquote : Str → Option Str} {t : CaseTag} (hg : t.Good) (h : t.Silent) :
    lookup unquote ['h', 't', 't', 'p'] t.tag = none := by
  obtain ⟨r, hr, e⟩ := tag_rest t
  rw [e, http_key]
  exact docs_are_no_tags unquote t.pairs r _ hg.pairs hr h

theorem docs_text (unquote : Str → Option Str) {t : CaseTag} (hg : t.Good) :
    docsOf unquote (.mk t.tag none) = t.text := by
  unfold CaseTag.tag CaseTag.text
  cases hd : t.docs with
  | none =>
    have := (type_documents unquote t.pairs t.spaces hg.pairs (hg.plain hd)).2.2.2
    simpa using this
  | some d =>
    obtain ⟨n, first, more⟩ := d
    obtain ⟨h1, h2, h3⟩ := hg.lines n first more hd
    exact text_documents unquote t.pairs t.spaces n first more none hg.pairs h1 h2 h3

theorem atoiValue_digits (s : Str) (hne : s ≠ []) (hd : ∀ c ∈ s, '0' ≤ c ∧ c ≤ '9') (h : Rest.Spec.decVal s < 2 ^ 63) :
    atoiValue s = (Rest.Spec.decVal s : Int) := by
  unfold atoiValue
  cases s with
  | nil => exact absurd rfl hne
  | cons c d =>
    have hc := hd c (by simp)
    have h1 : c ≠ '-' := by rintro rfl; revert hc; decide
    have h2 : c ≠ '+' := by rintro rfl; revert hc; decide
    split
    next neg ds heq =>
    split at heq
    · next h => simp at h; exact absurd h.1 h1
    · next h => simp at h; exact absurd h.1 h2
    · simp at heq
      obtain ⟨rfl, rfl⟩ := heq
      rw [if_neg (by simp), Rest.digits?_eq _ hd]
      simp only [Bool.false_eq_true, if_false]
      omega

/-- What the first scenario that accepts the error is. -/
theorem found (unquote : Str → Option Str) (types : Types) (regs : List Reg) (err : Err) (u i : Nat) (c : Case)
    (hreg : Registered regs u) (hc : (types u)[i]? = some c) (hw : Reaches u i err) :
    ∃ s, (scenarios unquote types regs).find? (fun s => accepts s err) = some s ∧
      s.tags = c.tag ∧ s.text = docsOf unquote (.mk c.tag none) := by
  obtain ⟨r, hr, he, ht⟩ := hreg
  cases hf : (scenarios unquote types regs).find? (fun s => accepts s err) with
  | none =>
    exfalso
    have hm : (⟨c.name, r.field, docsOf unquote (.mk c.tag none), c.tag, u, i⟩ : Scenario) ∈ scenarios unquote types regs :=
      (scenarios_listed unquote types _ regs).mpr ⟨r, hr, he, ht, rfl, c, hc, rfl, rfl, rfl⟩
    have := List.find?_eq_none.mp hf _ hm
    exact this ((test_iff _ err).mpr hw)
  | some s =>
    have ha := List.find?_some hf
    obtain ⟨_, _, _, _, _, c', hc', _, h5, h6⟩ := (scenarios_listed unquote types s regs).mp (List.mem_of_find?_eq_some hf)
    obtain ⟨e1, e2⟩ := one_case hw ((test_iff s err).mp ha)
    rw [← e1, ← e2, hc] at hc'
    injection hc' with hc'; subst hc'
    exact ⟨s, rfl, h5, h6⟩

/-! ## Theorems -/

/-- **C236.** An error of a registered case, however deep it is wrapped, is answered with the status its tag says. -/
theorem status_partial (unquote : Str → Option Str) (types : Types) (regs : List Reg) (err : Err) (u i : Nat) (c : Case)
    (t : CaseTag) (n : Nat) (hreg : Registered regs u) (hc : (types u)[i]? = some c) (ht : c.tag = t.tag) (hg : t.Good)
    (hs : t.Says unquote n) (h0 : n ≠ 0) (hn : n < 2 ^ 63) (hw : Reaches u i err) :
    (handle unquote types regs err).1 = (n : Int) := by
  obtain ⟨s, hf, h1, _⟩ := found unquote types regs err u i c hreg hc hw
  obtain ⟨v, x, hv, hu, hx, hd, rfl⟩ := hs
  unfold handle
  dsimp only
  rw [hf]
  dsimp only
  rw [h1, ht, says_lookup hg hv, hu, Option.getD_some, atoiValue_digits x hx hd hn, if_pos (by omega)]

/-- **C236.** Its message is the documentation of the case, if there is any, or else the text of the error. -/
theorem message_partial (unquote : Str → Option Str) (types : Types) (regs : List Reg) (err : Err) (u i : Nat) (c : Case)
    (t : CaseTag) (hreg : Registered regs u) (hc : (types u)[i]? = some c) (ht : c.tag = t.tag) (hg : t.Good)
    (hw : Reaches u i err) :
    (handle unquote types regs err).2 = if t.text = [] then text unquote types err else t.text := by
  obtain ⟨s, hf, _, h2⟩ := found unquote types regs err u i c hreg hc hw
  rw [ht, docs_text unquote hg] at h2
  unfold handle
  dsimp only
  rw [hf]
  dsimp only
  rw [h2]
  by_cases he : t.text = []
  · rw [if_neg (by simp [he]), if_pos he]
    unfold base
    cases statusHTTP unquote types err with
    | some s => rfl
    | none => simp [reaches_plain hw]
  · rw [if_pos he, if_neg he]

/-- **C236.** The answer, for a status of three digits. -/
theorem answered_partial (unquote : Str → Option Str) (types : Types) (regs : List Reg) (err : Err) (u i : Nat) (c : Case)
    (t : CaseTag) (n : Nat) (hreg : Registered regs u) (hc : (types u)[i]? = some c) (ht : c.tag = t.tag) (hg : t.Good)
    (hs : t.Says unquote n) (h0 : 100 ≤ n) (hn : n ≤ 999) (hw : Reaches u i err) :
    answer unquote types regs err = some ((n : Int), if t.text = [] then text unquote types err else t.text) := by
  have h1 := status_partial unquote types regs err u i c t n hreg hc ht hg hs (by omega) (by omega) hw
  have h2 := message_partial unquote types regs err u i c t hreg hc ht hg hw
  unfold answer
  dsimp only
  rw [h1, if_neg (by omega), ← h2, ← h1]

/-- **C236.** A case whose tag says no status is answered with 500, wrapped or not. -/
theorem silent_500 (unquote : Str → Option Str) (types : Types) (regs : List Reg) (err : Err) (u i : Nat) (c : Case)
    (t : CaseTag) (hc : (types u)[i]? = some c) (ht : c.tag = t.tag) (hg : t.Good) (hs : t.Silent) (hw : Reaches u i err) :
    (handle unquote types regs err).1 = 500 := by
  have hl := silent_lookup (unquote := unquote) hg hs
  have hb : (base unquote types err).1 = 500 := by
    unfold base
    cases hw with
    | bare => simp [statusHTTP, hc, tagStatus, ht, hl]
    | case held => simp [statusHTTP, hc, tagStatus, ht, hl]
    | wrap b a e h =>
      have := reaches_plain (Reaches.wrap b a e h)
      simp [statusHTTP, this]
  unfold handle
  dsimp only
  cases hf : (scenarios unquote types regs).find? (fun s => accepts s err) with
  | none => exact hb
  | some s =>
    have ha := List.find?_some hf
    obtain ⟨_, _, _, _, _, c', hc', _, h5, _⟩ := (scenarios_listed unquote types s regs).mp (List.mem_of_find?_eq_some hf)
    obtain ⟨e1, e2⟩ := one_case hw ((test_iff s err).mp ha)
    rw [← e1, ← e2, hc] at hc'
    injection hc' with hc'; subst hc'
    dsimp only
    rw [h5, ht, hl, hb]
    rfl

/-- **C236.** An error that is of no registered case, as far as it can be unwrapped, is answered with its own status, 501 if
it says that something is not implemented, and 500 otherwise; and with its own text. -/
theorem others_own (unquote : Str → Option Str) (types : Types) (regs : List Reg) (err : Err)
    (h : ∀ u i, Reaches u i err → ¬ Registered regs u) :
    (∀ s, statusHTTP unquote types err = some s → s ≠ 0 → handle unquote types regs err = (s, text unquote types err)) ∧
    (statusHTTP unquote types err = none → isNotImplemented err = false →
      handle unquote types regs err = (500, text unquote types err)) ∧
    (statusHTTP unquote types err = none → isNotImplemented err = true → (handle unquote types regs err).1 = 501) := by
  have hf : (scenarios unquote types regs).find? (fun s => accepts s err) = none := by
    rw [List.find?_eq_none]
    intro s hs ha
    obtain ⟨r, hr, he, ht, _⟩ := (scenarios_listed unquote types s regs).mp hs
    exact h _ _ ((test_iff s err).mp ha) ⟨r, hr, he, ht⟩
  unfold handle
  dsimp only
  rw [hf]
  dsimp only
  unfold base
  refine ⟨fun s hs h0 => ?_, fun hs hn => ?_, fun hs hn => ?_⟩
  · rw [hs]; simp [h0]
  · rw [hs]; simp [hn]
  · rw [hs]; simp [hn]

/-- **C236.** The status an error of a case has of itself is the one its tag says. -/
theorem own_status (unquote : Str → Option Str) (types : Types) (u i : Nat) (held : Err) (c : Case) (t : CaseTag) (n : Nat)
    (hc : (types u)[i]? = some c) (ht : c.tag = t.tag) (hg : t.Good) (hs : t.Says unquote n) (hn : n < 2 ^ 63) :
    statusHTTP unquote types (.case u i held) = some (n : Int) ∧ statusHTTP unquote types (.bare u i) = some (n : Int) := by
  obtain ⟨v, x, hv, hu, hx, hd, rfl⟩ := hs
  have e : tagStatus unquote c.tag = (Rest.Spec.decVal x : Int) := by
    unfold tagStatus
    rw [ht, says_lookup hg hv, hu]
    show (Rest.atoi x).getD 500 = _
    rw [Rest.atoi_eq x hx hd hn]; rfl
  simp [statusHTTP, hc, e]

/-- **C236.** A case has the status 500 of itself if its tag says none, or says nothing in it; the zero
value of an error type has 500; and other errors have a status of themselves only if they have that method. -/
theorem own_status_default (unquote : Str → Option Str) (types : Types) (u i : Nat) (held : Err) (c : Case) (t : CaseTag)
    (hc : (types u)[i]? = some c) (ht : c.tag = t.tag) (hg : t.Good) :
    (t.Silent → statusHTTP unquote types (.case u i held) = some 500 ∧ statusHTTP unquote types (.bare u i) = some 500) ∧
    (∀ v, First "http".toList t.pairs v → unquote v = some [] →
      statusHTTP unquote types (.case u i held) = some 500 ∧ statusHTTP unquote types (.bare u i) = some 500) ∧
    statusHTTP unquote types (.empty u) = some 500 ∧
    (∀ s n, statusHTTP unquote types (.coded s n) = some n) ∧
    (∀ s, statusHTTP unquote types (.plain s) = none) ∧
    (∀ a b e, statusHTTP unquote types (.wrap a b e) = none) ∧ (∀ a b, statusHTTP unquote types (.join a b) = none) := by
  have key : tagStatus unquote c.tag = 500 →
      statusHTTP unquote types (.case u i held) = some 500 ∧ statusHTTP unquote types (.bare u i) = some 500 := by
    intro e; simp [statusHTTP, hc, e]
  refine ⟨fun hs => key ?_, fun v hv hu => key ?_, rfl, fun _ _ => rfl, fun _ => rfl, fun _ _ _ => rfl, fun _ _ => rfl⟩
  · unfold tagStatus; rw [ht, silent_lookup hg hs]
  · unfold tagStatus; rw [ht, says_lookup hg hv, hu]; rfl

/-- **C236.** The text of an error of a case is the text of the error it holds, however many cases are in between. -/
theorem held_text (unquote : Str → Option Str) (types : Types) (e : Err) (path : List (Nat × Nat)) :
    text unquote types (path.foldr (fun p e => .case p.1 p.2 e) e) = text unquote types e := by
  induction path with
  | nil => rfl
  | cons p path ih => exact ih

theorem txt_key : (['t', 'x', 't'] : Str) = "txt".toList := by decide +kernel

/-- **C236.** The text of a case that holds no error is its `txt` tag (even an empty one), or else its name if it is of the
error type itself; the zero value of an error type says that it is empty; `fmt.Errorf` and `errors.Join` write the texts
of what they wrap. -/
theorem texts (unquote : Str → Option Str) (types : Types) (u i : Nat) (c : Case) (t : CaseTag)
    (hc : (types u)[i]? = some c) (ht : c.tag = t.tag) (hg : t.Good) :
    (∀ v s, First "txt".toList t.pairs v → unquote v = some s → text unquote types (.bare u i) = s) ∧
    ((∀ p ∈ t.pairs, p.key ≠ "txt".toList) → c.void = true → text unquote types (.bare u i) = c.name) ∧
    ((∀ p ∈ t.pairs, p.key ≠ "txt".toList) → c.void = false → text unquote types (.bare u i) = "<nil>".toList) ∧
    text unquote types (.empty u) = "empty error".toList ∧
    (∀ before after e, text unquote types (.wrap before after e) = before ++ text unquote types e ++ after) ∧
    (∀ a b, text unquote types (.join a b) = text unquote types a ++ ['\n'] ++ text unquote types b) := by
  obtain ⟨r, hr, e⟩ := tag_rest t
  have hb : text unquote types (.bare u i) = bareText unquote c := by
    show (match (types u)[i]? with | some c => bareText unquote c | none => []) = _
    rw [hc]
  refine ⟨fun v s hv hu => ?_, fun hn hv => ?_, fun hn hv => ?_, by rfl, fun _ _ _ => rfl, fun a b => ?_⟩
  · have hl := key_is_read unquote t.pairs r _ v hg.pairs hr hv
    rw [hb, bareText, ht, e, txt_key, hl, hu]
  · have hl := docs_are_no_tags unquote t.pairs r _ hg.pairs hr hn
    rw [hb, bareText, ht, e, txt_key, hl]; simp [hv]
  · have hl := docs_are_no_tags unquote t.pairs r _ hg.pairs hr hn
    rw [hb, bareText, ht, e, txt_key, hl]; simp [hv]
  · show text unquote types a ++ '\n' :: text unquote types b = _
    simp

/-- **C236.** Wrapping an error of a registered case that says a status does not change the status. -/
theorem wrapping_same (unquote : Str → Option Str) (types : Types) (regs : List Reg) (a b : Err) (u i : Nat) (c : Case)
    (t : CaseTag) (n : Nat) (hreg : Registered regs u) (hc : (types u)[i]? = some c) (ht : c.tag = t.tag) (hg : t.Good)
    (hs : t.Says unquote n) (h0 : n ≠ 0) (hn : n < 2 ^ 63) (ha : Reaches u i a) (hb : Reaches u i b) :
    (handle unquote types regs a).1 = (handle unquote types regs b).1 := by
  rw [status_partial unquote types regs a u i c t n hreg hc ht hg hs h0 hn ha,
    status_partial unquote types regs b u i c t n hreg hc ht hg hs h0 hn hb]

/-! ## A concrete case -/

/-- A tag with a status and documentation. -/
def denied : CaseTag := ⟨[⟨0, "http".toList, "403".toList⟩], 0, some (1, "denied".toList, [])⟩

/-- One error type of two cases. -/
def exTypes : Types := fun _ => [⟨"Internal".toList, [], false⟩, ⟨"Denied".toList, denied.tag, true⟩]

theorem denied_good : denied.Good where
  pairs := by
    intro p hp
    simp [denied] at hp; subst hp
    refine ⟨⟨by decide +kernel, by decide +kernel⟩, ?_⟩
    exact IsValue.plain '4' ['0', '3'] (by decide) (by decide) (by decide) (.plain _ _ (by decide) (by decide) (by decide)
      (.plain _ _ (by decide) (by decide) (by decide) .nil))
  lines := by
    intro n first more h
    simp only [denied, Option.some.injEq, Prod.mk.injEq] at h
    obtain ⟨rfl, rfl, rfl⟩ := h
    exact ⟨by decide +kernel, by decide +kernel, by simp⟩
  plain := by intro h; cases h

theorem denied_says : denied.Says some 403 :=
  ⟨"403".toList, "403".toList, .here _ _ rfl, rfl, by decide +kernel, by decide +kernel, by decide +kernel⟩

example : answer some exTypes [⟨"Error".toList, true, some 0⟩] (.wrap "while: ".toList [] (.bare 0 1)) =
    some (403, "denied".toList) := by
  have := answered_partial some exTypes [⟨"Error".toList, true, some 0⟩] (.wrap "while: ".toList [] (.bare 0 1)) 0 1
    ⟨"Denied".toList, denied.tag, true⟩ denied 403 ⟨_, List.mem_cons_self, rfl, rfl⟩ rfl rfl denied_good denied_says
    (by decide) (by decide) (.wrap _ _ _ .bare)
  rw [this]; decide +kernel

/-! ## Errors that say what was not implemented, and odd statuses -/

/-- The error is `ErrNotImplemented`, or wraps or joins it. A case of an error type hides what it holds. -/
inductive SaysNotImplemented : Err → Prop
  | self : SaysNotImplemented .notImplemented
  | wrap (before after : Str) (e : Err) : SaysNotImplemented e → SaysNotImplemented (.wrap before after e)
  | left (a b : Err) : SaysNotImplemented a → SaysNotImplemented (.join a b)
  | right (a b : Err) : SaysNotImplemented b → SaysNotImplemented (.join a b)

theorem notImplemented_iff (e : Err) : isNotImplemented e = true ↔ SaysNotImplemented e := by
  induction e with
  | notImplemented => exact ⟨fun _ => .self, fun _ => rfl⟩
  | wrap b a e ih =>
    refine ⟨fun h => .wrap _ _ _ (ih.mp h), fun h => ?_⟩
    cases h with | wrap _ _ _ h => exact ih.mpr h
  | join a b iha ihb =>
    refine ⟨fun h => ?_, fun h => ?_⟩
    · unfold isNotImplemented at h
      cases ha : isNotImplemented a with
      | true => exact .left _ _ (iha.mp ha)
      | false => rw [ha, Bool.false_or] at h; exact .right _ _ (ihb.mp h)
    · unfold isNotImplemented
      cases h with
      | left _ _ h => rw [iha.mpr h, Bool.true_or]
      | right _ _ h => rw [ihb.mpr h, Bool.or_true]
  | plain => exact ⟨fun h => (nomatch h), fun h => (nomatch h)⟩
  | coded => exact ⟨fun h => (nomatch h), fun h => (nomatch h)⟩
  | empty => exact ⟨fun h => (nomatch h), fun h => (nomatch h)⟩
  | bare => exact ⟨fun h => (nomatch h), fun h => (nomatch h)⟩
  | case => exact ⟨fun h => (nomatch h), fun h => (nomatch h)⟩

theorem no_case_of {e : Err} (h : SaysNotImplemented e) : (∀ u i, ¬ Reaches u i e) ∧ ∀ unquote types, statusHTTP unquote types e = none := by
  refine ⟨fun u i hr => ?_, fun unquote types => ?_⟩
  · rw [← notImplemented_iff, reaches_plain hr] at h; cases h
  · cases h <;> rfl

/-- **C236.** An error that is, wraps or joins `ErrNotImplemented` is answered with 501, whatever is registered. -/
theorem not_implemented_501 (unquote : Str → Option Str) (types : Types) (regs : List Reg) (err : Err)
    (h : SaysNotImplemented err) : ∃ m, answer unquote types regs err = some (501, m) := by
  have h1 := (others_own unquote types regs err fun u i hr => absurd hr ((no_case_of h).1 u i)).2.2
    ((no_case_of h).2 unquote types) ((notImplemented_iff err).mpr h)
  exact ⟨(handle unquote types regs err).2, by unfold answer; dsimp only; rw [h1, if_neg (by omega), ← h1]⟩

example : SaysNotImplemented (.join (.plain ['x']) (.wrap ['y'] [] .notImplemented)) := .right _ _ (.wrap _ _ _ .self)

/-- **C236.** An error whose status of itself is 0, and that is of no registered case, is answered with 500 and its text. -/
theorem zero_is_500 (unquote : Str → Option Str) (types : Types) (regs : List Reg) (t : Str) :
    answer unquote types regs (.coded t 0) = some (500, t) := by
  have hf : (scenarios unquote types regs).find? (fun s => accepts s (.coded t 0)) = none := by
    rw [List.find?_eq_none]; intro s _ ha; cases (test_iff s _).mp ha
  unfold answer handle
  dsimp only
  rw [hf]
  simp [base, statusHTTP, text]

/-- **C236.** An error with a status of itself is answered with it if it has three digits, and else the answer panics. -/
theorem coded_answer (unquote : Str → Option Str) (types : Types) (regs : List Reg) (t : Str) (n : Int) (h0 : n ≠ 0) :
    (100 ≤ n → n ≤ 999 → answer unquote types regs (.coded t n) = some (n, t)) ∧
    (n < 100 ∨ 999 < n → answer unquote types regs (.coded t n) = none) := by
  have h := (others_own unquote types regs (.coded t n) fun u i hr => (nomatch hr)).1 n rfl h0
  unfold answer
  dsimp only
  rw [h]
  refine ⟨fun h1 h2 => if_neg (by omega), fun h1 => if_pos h1⟩

/-- **C236.** Signs in a tag are read as Go reads them, and what is too small for an `int` is the least one. -/
theorem signed_partial :
    handle some (fun _ => [⟨['A'], "http:\"+403\"".toList, true⟩]) [⟨['E'], true, some 0⟩] (.bare 0 0) = (403, ['A']) ∧
    (handle some (fun _ => [⟨['A'], "http:\"-9999999999999999999\"".toList, true⟩]) [⟨['E'], true, some 0⟩] (.bare 0 0)).1 =
      -2 ^ 63 ∧
    (handle some (fun _ => [⟨['A'], "http:\"-99999999999999999999\"".toList, true⟩]) [⟨['E'], true, some 0⟩] (.bare 0 0)).1 =
      -2 ^ 63 := by
  decide +kernel

/-! ## Where the claim fails -/

/-- The claim in full: an error that is, wraps or joins an error of a registered case is answered with the status that the
case says. -/
def Claim : Prop :=
  ∀ (unquote : Str → Option Str) (types : Types) (regs : List Reg) (err : Err) (u i : Nat) (c : Case) (t : CaseTag) (n : Nat),
    Registered regs u → (types u)[i]? = some c → c.tag = t.tag → t.Good → t.Says unquote n → 100 ≤ n → n ≤ 999 →
    Holds u i err → ∃ m, answer unquote types regs err = some ((n : Int), m)

/-- **C236 fails.** A joined error is answered with 500, whatever the case says. -/
theorem claim_fails : ¬ Claim := by
  intro h
  obtain ⟨m, hm⟩ := h some exTypes [⟨"Error".toList, true, some 0⟩] (.join (.bare 0 1) (.plain ['x'])) 0 1
    ⟨"Denied".toList, denied.tag, true⟩ denied 403 ⟨_, List.mem_cons_self, rfl, rfl⟩ rfl rfl denied_good denied_says
    (by decide) (by decide) (.left _ _ .bare)
  have := (others_own some exTypes [⟨"Error".toList, true, some 0⟩] (.join (.bare 0 1) (.plain ['x']))
    (fun u i h => (nomatch h))).2.1 rfl rfl
  unfold answer at hm
  rw [this] at hm
  simp at hm

/-- **C236 fails.** An error type that is not registered keeps its status only if it is not wrapped; and one case within
another is answered as the outer one. -/
theorem wrapped_fails :
    (handle some exTypes [] (.bare 0 1)).1 = 403 ∧ (handle some exTypes [] (.wrap [] [] (.bare 0 1))).1 = 500 ∧
    (handle some exTypes [⟨"Error".toList, true, some 0⟩] (.case 0 0 (.bare 0 1))).1 = 500 := by
  decide +kernel

/-- **C236 fails.** A tag whose status is not of three digits makes the answer panic, and for one that is too long for an
`int` the two readings of the tag do not agree. -/
theorem bad_status_fails :
    answer some (fun _ => [⟨['A'], "http:\"42\"".toList, true⟩]) [⟨['E'], true, some 0⟩] (.bare 0 0) = none ∧
    (handle some (fun _ => [⟨['A'], "http:\"9999999999999999999\"".toList, true⟩]) [] (.bare 0 0)).1 = 500 ∧
    (handle some (fun _ => [⟨['A'], "http:\"9999999999999999999\"".toList, true⟩]) [⟨['E'], true, some 0⟩] (.bare 0 0)).1 =
      2 ^ 63 - 1 := by
  decide +kernel

end Verif.Api.Answer
