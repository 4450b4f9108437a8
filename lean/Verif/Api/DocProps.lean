import Verif.Api.DocModel
/-!
# Properties of documentation and registered errors (C143, C144)
-/
namespace Verif.Api

/-! ## C143: documentation -/

/-- Lines with newlines between them. -/
def unlines : List Str → Str
  | [] => []
  | [l] => l
  | l :: ls => l ++ '\n' :: unlines ls

/-- A line without the indentation of `n` tabs; a line that is indented less is left as it is. -/
def dedent (n : Nat) (l : Str) : Str := if l.take n = List.replicate n '\t' then l.drop n else l

/-- Every text is made of lines. -/
theorem lines_exist (s : Str) : ∃ ls : List Str, ls ≠ [] ∧ (∀ l ∈ ls, '\n' ∉ l) ∧ unlines ls = s := by
  induction s with
  | nil => exact ⟨[[]], by simp, by simp, rfl⟩
  | cons c s ih =>
    obtain ⟨ls, h1, h2, h3⟩ := ih
    by_cases hc : c = '\n'
    · refine ⟨[] :: ls, by simp, ?_, ?_⟩
      · intro l hl
        rcases List.mem_cons.mp hl with rfl | hl
        · simp
        · exact h2 l hl
      · cases ls with
        | nil => exact absurd rfl h1
        | cons l ls => simp [unlines, hc, h3]
    · cases ls with
      | nil => exact absurd rfl h1
      | cons l ls =>
        refine ⟨(c :: l) :: ls, by simp, ?_, ?_⟩
        · intro x hx
          rcases List.mem_cons.mp hx with rfl | hx
          · have := h2 l (List.mem_cons_self ..)
            simp [Ne.symm hc, this]
          · exact h2 x (List.mem_cons_of_mem _ hx)
        · cases ls with
          | nil => rw [← h3]; rfl
          | cons _ _ => rw [← h3]; rfl

theorem isPrefix_replicate (n : Nat) (l rest : Str) (hr : ∀ c t, rest = c :: t → c ≠ '\t') :
    isPrefix (List.replicate n '\t') (l ++ rest) = decide (l.take n = List.replicate n '\t') := by
  induction n generalizing l with
  | zero => simp [isPrefix]
  | succ n ih =>
    cases l with
    | nil =>
      cases rest with
      | nil => simp [isPrefix, List.replicate_succ]
      | cons c t =>
        have := hr c t rfl
        simp [isPrefix, List.replicate_succ, Ne.symm this]
    | cons c l =>
      simp only [List.replicate_succ, List.cons_append, isPrefix, List.take_succ_cons, ih]
      by_cases hc : '\t' = c
      · subst hc; simp
      · simp [hc, Ne.symm hc]

/-- Without newlines nothing is replaced. -/
theorem replace_plain (n : Nat) (l rest : Str) (hl : '\n' ∉ l) :
    replaceFrom ('\n' :: List.replicate n '\t') ['\n'] 0 (l ++ rest) =
      l ++ replaceFrom ('\n' :: List.replicate n '\t') ['\n'] 0 rest := by
  induction l with
  | nil => rfl
  | cons c l ih =>
    simp only [List.mem_cons, not_or] at hl
    have hp : isPrefix ('\n' :: List.replicate n '\t') (c :: (l ++ rest)) = false := by simp [isPrefix, hl.1]
    rw [List.cons_append, replaceFrom, hp]
    simp [ih hl.2]

theorem replace_skip (pat rep : Str) (a s : Str) : replaceFrom pat rep a.length (a ++ s) = replaceFrom pat rep 0 s := by
  induction a with
  | nil => rfl
  | cons c a ih => simpa [replaceFrom] using ih

/-- A line after its newline. -/
theorem replace_line (n : Nat) (l rest : Str) (hl : '\n' ∉ l) (hr : ∀ c t, rest = c :: t → c ≠ '\t') :
    replaceFrom ('\n' :: List.replicate n '\t') ['\n'] 0 ('\n' :: l ++ rest) =
      '\n' :: dedent n l ++ replaceFrom ('\n' :: List.replicate n '\t') ['\n'] 0 rest := by
  simp only [List.cons_append, replaceFrom, isPrefix, isPrefix_replicate n l rest hr]
  unfold dedent
  by_cases h : l.take n = List.replicate n '\t'
  · simp only [h, decide_true, Bool.and_self, if_true, List.length_cons, List.length_replicate,
      Nat.add_sub_cancel, List.singleton_append]
    have hlen : (l.take n).length = n := by rw [h]; simp
    have : replaceFrom ('\n' :: List.replicate n '\t') ['\n'] n (l ++ rest) =
        replaceFrom ('\n' :: List.replicate n '\t') ['\n'] 0 (l.drop n ++ rest) := by
      have := replace_skip ('\n' :: List.replicate n '\t') ['\n'] (l.take n) (l.drop n ++ rest)
      rw [hlen, ← List.append_assoc, List.take_append_drop] at this
      exact this
    rw [this, replace_plain n _ _ (fun hm => hl (List.mem_of_mem_drop hm))]
    rfl
  · simp only [h, decide_false, Bool.and_false, Bool.false_eq_true, if_false]
    rw [replace_plain n l rest hl]

theorem replace_lines (n : Nat) (ls : List Str) (h1 : ls ≠ []) (hl : ∀ l ∈ ls, '\n' ∉ l) :
    replaceFrom ('\n' :: List.replicate n '\t') ['\n'] 0 ('\n' :: unlines ls) =
      '\n' :: unlines (ls.map (dedent n)) := by
  induction ls with
  | nil => exact absurd rfl h1
  | cons l ls ih =>
    cases ls with
    | nil =>
      have := replace_line n l [] (hl l (List.mem_cons_self ..)) nofun
      simpa [unlines, replaceFrom] using this
    | cons m ls =>
      have := replace_line n l ('\n' :: unlines (m :: ls)) (hl l (List.mem_cons_self ..))
        (fun c t e => by cases e; decide)
      rw [ih (by simp) (fun x hx => hl x (List.mem_cons_of_mem _ hx))] at this
      simpa [unlines] using this

theorem after_plain (tag text : Str) (h : '\n' ∉ tag) : afterNewline (tag ++ '\n' :: text) = some text := by
  induction tag with
  | nil => rfl
  | cons c s ih =>
    simp only [List.mem_cons, not_or] at h
    simp [afterNewline, Ne.symm h.1, ih h.2]

/-- C143: the documentation of a field is the lines of its tag after the first, without the indentation (in tabs) of the
first of them; nothing else is changed. -/
theorem documentation (tag first : Str) (more : List Str) (n : Nat) (text : Str) (ht : '\n' ∉ tag)
    (hi : text.head? ≠ some '\t') (hf : first = List.replicate n '\t' ++ text) (hn : '\n' ∉ first)
    (hm : ∀ l ∈ more, '\n' ∉ l) :
    documentationOf (tag ++ '\n' :: unlines (first :: more)) = some (unlines (text :: more.map (dedent n))) := by
  unfold documentationOf
  rw [after_plain tag _ ht]
  have htabs : tabs (unlines (first :: more)) = n := by
    have key : ∀ (k : Nat) (s : Str), (∀ c t, s = c :: t → c ≠ '\t') → tabs (List.replicate k '\t' ++ s) = k := by
      intro k s hs
      induction k with
      | zero =>
        cases s with
        | nil => rfl
        | cons c t => simp [tabs, hs c t rfl]
      | succ k ih => simp [List.replicate_succ, tabs, ih]
    have hu : ∃ s, unlines (first :: more) = List.replicate n '\t' ++ s ∧ ∀ c t, s = c :: t → c ≠ '\t' := by
      cases more with
      | nil =>
        refine ⟨text, by simp [unlines, hf], ?_⟩
        intro c t e
        rw [e] at hi
        simpa using hi
      | cons m ms =>
        refine ⟨text ++ '\n' :: unlines (m :: ms), by simp [unlines, hf], ?_⟩
        intro c t e
        cases text with
        | nil => cases e; decide
        | cons c' t' =>
          cases e
          simpa using hi
    obtain ⟨s, e, hs⟩ := hu
    rw [e, key n s hs]
  simp only [Option.map_some, htabs]
  rw [replace_lines n (first :: more) (by simp) (by
    intro l hl
    rcases List.mem_cons.mp hl with rfl | hl
    · exact hn
    · exact hm l hl)]
  have hd : dedent n first = text := by
    unfold dedent
    rw [hf, List.take_left' (by simp), List.drop_left' (by simp)]
    simp
  simp [hd]

example : documentationOf "rest:\"GET /\"\n\t\tadds\n\t\t\ttwo\n\tnumbers".toList = some "adds\n\ttwo\n\tnumbers".toList :=
  documentation "rest:\"GET /\"".toList "\t\tadds".toList ["\t\t\ttwo".toList, "\tnumbers".toList] 2 "adds".toList
    (by decide +kernel) (by decide +kernel) (by decide +kernel) (by decide +kernel) (by decide +kernel)

/-! ## C144: registered errors -/

mutual
/-- An error is a case of a registered error type, or wraps one that is, directly or not (as `errors.Is` and `errors.As`
understand it). -/
def Err.Holds (c : Nat) : Err → Prop
  | .leaf k => k = some c
  | .wrap k e => k = some c ∨ e.Holds c
  | .join k es => k = some c ∨ es.Holds c
/-- One of the errors is. -/
def Errs.Holds (c : Nat) : Errs → Prop
  | .nil => False
  | .cons e r => e.Holds c ∨ r.Holds c
end

/-- An error that wraps one error at a time. -/
def Err.Chain : Err → Prop
  | .leaf _ => True
  | .wrap _ e => e.Chain
  | .join _ _ => False

/-- C144 (`_partial`: for errors that wrap one error at a time). The test of a registered error finds it however deep it is
wrapped, and finds nothing else. -/
theorem scenario_test_partial (c : Nat) (e : Err) (h : e.Chain) : scenarioTest c e = true ↔ e.Holds c := by
  match e with
  | .leaf k => simp [scenarioTest, Err.Holds]
  | .wrap k e =>
    unfold Err.Chain at h
    unfold scenarioTest Err.Holds
    rw [Bool.or_eq_true, scenario_test_partial c e h]
    simp
  | .join _ _ => exact absurd h id

/-- C144: what the test finds is there, for all errors. -/
theorem scenario_test_sound (c : Nat) (e : Err) (h : scenarioTest c e = true) : e.Holds c := by
  match e with
  | .leaf k => simpa [scenarioTest, Err.Holds] using h
  | .wrap k e =>
    unfold scenarioTest at h
    unfold Err.Holds
    rw [Bool.or_eq_true] at h
    rcases h with h | h
    · exact Or.inl (by simpa using h)
    · exact Or.inr (scenario_test_sound c e h)
  | .join k es =>
    unfold Err.Holds
    exact Or.inl (by simpa [scenarioTest] using h)

example : (Err.wrap none (.wrap none (.leaf (some 3)))).Chain ∧ scenarioTest 3 (.wrap none (.wrap none (.leaf (some 3)))) = true := by
  simp [Err.Chain, scenarioTest]

/-- C144: the test of a registered error finds it. -/
def ScenarioTestClaim : Prop := ∀ c e, Err.Holds c e → scenarioTest c e = true

/-- C144 does not hold: a registered error that was joined with another one, or is one of two that were wrapped, is not
found. -/
theorem scenario_test_fails : ¬ ScenarioTestClaim := by
  intro h
  have := h 3 (.join none (.cons (.leaf (some 3)) .nil)) (by simp [Err.Holds, Errs.Holds])
  simp [scenarioTest] at this

end Verif.Api
