import Verif.Data.Spec
namespace Verif.Data

/-- Facts about `reports`. -/
theorem leaf_locate (m : Mirror) (k : Kind) (fs : List Fld) (hex : ∀ f ∈ fs, f.exported = true) :
    ∃ m', (Err.leaf m k).locate fs = some (.leaf m' k) ∧ m'.value = m.value ∧
      ((∀ f ∈ fs, f.ref ≠ m.value) → m' = m) ∧
      (∀ f ∈ fs, f.ref = m.value → (∀ g ∈ fs, g.ref = m.value → g = f) → m'.field = f.info ∧ m'.index = []) := by
  induction fs generalizing m with
  | nil => exact ⟨m, rfl, rfl, fun _ => rfl, fun f hf => by simp at hf⟩
  | cons f fs ih =>
    have hf := hex f List.mem_cons_self
    have hfs : ∀ g ∈ fs, g.exported = true := fun g hg => hex g (List.mem_cons_of_mem _ hg)
    by_cases hr : f.ref = m.value
    · obtain ⟨m', h1, h2, h3, h4⟩ := ih { m with index := [], field := f.info } hfs
      refine ⟨m', ?_, h2, ?_, ?_⟩
      · simp [Err.locate, Err.reflect, Mirror.reflect, hf, hr, h1]
      · intro hn; exact absurd hr (hn f List.mem_cons_self)
      · intro g hg hgr huniq
        have hfg := huniq f List.mem_cons_self hr
        by_cases hmem : ∃ x ∈ fs, x.ref = m.value
        · obtain ⟨x, hx, hxr⟩ := hmem
          have := huniq x (List.mem_cons_of_mem _ hx) hxr
          subst this
          exact h4 x hx hxr (fun y hy hyr => huniq y (List.mem_cons_of_mem _ hy) hyr)
        · have : m' = { m with index := [], field := f.info } :=
            h3 (fun x hx hxr => hmem ⟨x, hx, hxr⟩)
          subst this; subst hfg; exact ⟨rfl, rfl⟩
    · obtain ⟨m', h1, h2, h3, h4⟩ := ih m hfs
      refine ⟨m', ?_, h2, ?_, ?_⟩
      · simp [Err.locate, Err.reflect, Mirror.reflect, hf, hr, h1]
      · intro hn; exact h3 (fun g hg => hn g (List.mem_cons_of_mem _ hg))
      · intro g hg hgr huniq
        have hg' : g ∈ fs := by
          rcases List.mem_cons.1 hg with h | h
          · subst h; exact absurd hgr hr
          · exact h
        exact h4 g hg' hgr (fun y hy hyr => huniq y (List.mem_cons_of_mem _ hy) hyr)

/-- A check gives nil exactly if the constraint holds, and otherwise an error about the member. -/
theorem check_cases (c : Constraint) (m : Member) :
    (c.Holds m.val ∧ c.check m = none) ∨
      (¬ c.Holds m.val ∧ ∃ k, c.check m = some (.leaf { value := m.fld.ref } k)) := by
  obtain ⟨f, v⟩ := m
  cases c with
  | required =>
    cases v with
    | num n =>
      by_cases h : n = 0
      · right; exact ⟨by simp [Constraint.Holds, Provided, h], .missing, by simp [Constraint.check, missing, h]⟩
      · left; exact ⟨by simp [Constraint.Holds, Provided, h], by simp [Constraint.check, missing, h]⟩
    | str s =>
      by_cases h : s = []
      · right; exact ⟨by simp [Constraint.Holds, Provided, h], .missing, by simp [Constraint.check, missing, h]⟩
      · left; exact ⟨by simp [Constraint.Holds, Provided, h], by simp [Constraint.check, missing, h]⟩
    | slice s =>
      by_cases h : s = []
      · right; exact ⟨by simp [Constraint.Holds, Provided, h], .missing, by simp [Constraint.check, missing, h]⟩
      · left; exact ⟨by simp [Constraint.Holds, Provided, h], by simp [Constraint.check, missing, h]⟩
    | map s =>
      by_cases h : s = []
      · right; exact ⟨by simp [Constraint.Holds, Provided, h], .missing, by simp [Constraint.check, missing, h]⟩
      · left; exact ⟨by simp [Constraint.Holds, Provided, h], by simp [Constraint.check, missing, h]⟩
    | ptr s =>
      cases s with
      | none => right; exact ⟨by simp [Constraint.Holds, Provided], .missing, by simp [Constraint.check, missing]⟩
      | some s => left; exact ⟨by simp [Constraint.Holds, Provided], by simp [Constraint.check, missing]⟩
  | atMost n =>
    by_cases h : n < (v.len : Int)
    · right
      refine ⟨?_, .exceeds (showInt n ++ v.unit), by simp [Constraint.check, exceeds, h]⟩
      cases v <;> simp only [Constraint.Holds, Within, Val.len] at h ⊢ <;> omega
    · left
      refine ⟨?_, by simp [Constraint.check, exceeds, h]⟩
      cases v <;> simp only [Constraint.Holds, Within, Val.len] at h ⊢ <;> omega
  | valid cls fn hints =>
    by_cases h : fn v
    · left; exact ⟨h, by simp [Constraint.check, invalid, h]⟩
    · right; exact ⟨h, .invalid cls (joinHints hints), by simp [Constraint.check, invalid, h]⟩

theorem joinFrom_tail (n : Nat) (ts : List Str) (t : Str) (i : Nat) (hi : 0 < i) (hn : n = i + ts.length + 1) :
    joinFrom n i (t :: ts) =
      (if ts = [] then " and ".toList else ", ".toList) ++ t ++ joinFrom n (i + 1) ts := by
  rw [joinFrom]
  congr 2
  unfold joint
  cases ts with
  | nil => simp at hn; simp [hn, hi]
  | cons x xs =>
    have : ¬ i = n - 1 := by simp at hn; omega
    simp [this, hi]

theorem joinFrom_english (ts : List Str) (t u : Str) (n i : Nat) (hi : 0 < i) (hn : n = i + ts.length + 1) :
    ∃ r, InEnglish (t :: u :: ts) r ∧ r = t ++ joinFrom (i + ts.length + 1) i (u :: ts) := by
  induction ts generalizing t u i n with
  | nil =>
    refine ⟨_, .two t u, ?_⟩
    rw [joinFrom_tail _ [] u i hi rfl]
    simp [joinFrom]
  | cons x xs ih =>
    obtain ⟨r, hr, he⟩ := ih u x n (i + 1) (by omega) (by simp at hn; omega)
    refine ⟨_, .more t u x xs r hr, ?_⟩
    rw [joinFrom_tail _ (x :: xs) u i hi rfl, he]
    simp only [List.length_cons, reduceCtorEq, if_false, List.append_assoc]
    congr 3
    congr 1
    omega

/-- The text that `joinFrom` writes is the list in English. -/
theorem join_english (ts : List Str) (hne : ts ≠ []) : InEnglish ts (joinFrom ts.length 0 ts) := by
  match ts, hne with
  | [t], _ => simpa [joinFrom, joint] using InEnglish.one t
  | t :: u :: ts, _ =>
    obtain ⟨r, hr, he⟩ := joinFrom_english ts t u (1 + ts.length + 1) 1 (by omega) rfl
    have : joinFrom (t :: u :: ts).length 0 (t :: u :: ts) = r := by
      rw [joinFrom, he]
      simp only [joint, List.length_cons]
      simp
      congr 1
      omega
    rw [this]; exact hr

theorem textsOf_eq (es : List Err) : textsOf es = es.map Err.text := by
  induction es with
  | nil => simp [textsOf]
  | cons e es ih => rw [textsOf, ih]; rfl

end Verif.Data
