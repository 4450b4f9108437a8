import Verif.Wasm.SqueezeProps
/-!
# C88: default registers of wasm signatures
-/
namespace Verif.Wasm

/-- The sizes of the values that have any. -/
def sizesOf (ts : List RTy) : List Nat := (ts.map RTy.size).filter (· ≠ 0)

theorem sizesOf_cons (t : RTy) (ts : List RTy) :
    sizesOf (t :: ts) = if t.size = 0 then sizesOf ts else t.size :: sizesOf ts := by
  by_cases h : t.size = 0 <;> simp [sizesOf, h]

/-- What `defaultResults` does, in one statement for its proof by induction. -/
theorem defaultResults_spec (ts : List RTy) (hts : ∀ t ∈ ts, t.registers ≤ 1 → t.size ≤ 8)
    (used : Bool) (off : Int) (hoff : 0 ≤ off) :
    let ms := defaultResults ts used off
    ms.length = (sizesOf ts).length ∧
    (∀ (i n : Nat) (m : Mapping), (sizesOf ts)[i]? = some n → ms[i]? = some m →
      (m.spills = false → used = false ∧ m.offset = 0 ∧ n ≤ 8) ∧
      (m.spills = true → off ≤ m.offset ∧ m.offset + n ≤ off + spilled (sizesOf ts) ms)) ∧
    (∀ (i j n n' : Nat) (m m' : Mapping), i < j → (sizesOf ts)[i]? = some n → ms[i]? = some m →
      (sizesOf ts)[j]? = some n' → ms[j]? = some m' → m.spills = m'.spills →
      m.spills = true ∧ m.offset + n ≤ m'.offset) := by
  induction ts generalizing used off with
  | nil => simp [defaultResults, sizesOf]
  | cons t ts ih =>
    have hts' := fun t ht => hts t (List.mem_cons_of_mem _ ht)
    have ih := ih hts'
    rw [sizesOf_cons, defaultResults]
    by_cases h0 : t.size = 0
    · rw [if_pos h0, if_pos h0]; exact ih used off hoff
    · rw [if_neg h0, if_neg h0]
      by_cases hs : used = true ∨ t.registers > 1
      · rw [if_pos hs]
        obtain ⟨ih1, ih2, ih3⟩ := ih used (off + t.size) (by omega)
        refine ⟨by simp [ih1], ?_, ?_⟩
        · intro i n m hn hm
          cases i with
          | zero =>
            rw [List.getElem?_cons_zero, Option.some.injEq] at hn hm
            subst hn; subst hm
            refine ⟨fun h => (by cases h), fun _ => ⟨Int.le_refl _, ?_⟩⟩
            simp only [spilled, if_true]; omega
          | succ i =>
            rw [List.getElem?_cons_succ] at hn hm
            obtain ⟨a, b⟩ := ih2 i n m hn hm
            refine ⟨a, fun h => ?_⟩
            have := b h
            simp only [spilled, if_true]
            omega
        · intro i j n n' m m' hij hn hm hn' hm' hmm
          obtain ⟨j, rfl⟩ : ∃ j', j = j' + 1 := ⟨j - 1, by omega⟩
          rw [List.getElem?_cons_succ] at hn' hm'
          cases i with
          | zero =>
            rw [List.getElem?_cons_zero, Option.some.injEq] at hn hm
            subst hn; subst hm
            refine ⟨rfl, ?_⟩
            have := (ih2 j n' m' hn' hm').2 hmm.symm
            exact this.1
          | succ i =>
            rw [List.getElem?_cons_succ] at hn hm
            exact ih3 i j n n' m m' (by omega) hn hm hn' hm' hmm
      · rw [if_neg hs]
        obtain ⟨ih1, ih2, ih3⟩ := ih true off hoff
        have hu : used = false := by
          cases used
          · rfl
          · exact absurd (Or.inl rfl) hs
        refine ⟨by simp [ih1], ?_, ?_⟩
        · intro i n m hn hm
          cases i with
          | zero =>
            rw [List.getElem?_cons_zero, Option.some.injEq] at hn hm
            subst hn; subst hm
            refine ⟨fun _ => ⟨hu, rfl, hts t (List.mem_cons_self ..) ?_⟩, fun h => (by cases h)⟩
            have : ¬ t.registers > 1 := fun c => hs (Or.inr c)
            omega
          | succ i =>
            rw [List.getElem?_cons_succ] at hn hm
            obtain ⟨a, b⟩ := ih2 i n m hn hm
            refine ⟨fun h => absurd (a h).1 (by simp), fun h => ?_⟩
            have := b h
            simp only [spilled, Bool.false_eq_true, if_false]
            omega
        · intro i j n n' m m' hij hn hm hn' hm' hmm
          obtain ⟨j, rfl⟩ : ∃ j', j = j' + 1 := ⟨j - 1, by omega⟩
          rw [List.getElem?_cons_succ] at hn' hm'
          cases i with
          | zero =>
            rw [List.getElem?_cons_zero, Option.some.injEq] at hn hm
            subst hn; subst hm
            have := (ih2 j n' m' hn' hm').1 hmm.symm
            exact absurd this.1 (by simp)
          | succ i =>
            rw [List.getElem?_cons_succ] at hn hm
            exact ih3 i j n n' m m' (by omega) hn hm hn' hm' hmm

/-- C88: results have places of their own by default, if the types that take at most one register are
at most eight bytes. -/
theorem default_results_partial (ts : List RTy) (h : ∀ t ∈ ts, t.registers ≤ 1 → t.size ≤ 8) :
    Laid (sizesOf ts) (defaultResults ts false 0) 8
      (spilled (sizesOf ts) (defaultResults ts false 0)) := by
  obtain ⟨h1, h2, h3⟩ := defaultResults_spec ts h false 0 (by decide)
  refine ⟨h1, ?_, ?_⟩
  · intro i n m hn hm
    obtain ⟨a, b⟩ := h2 i n m hn hm
    cases hs : m.spills
    · have := a hs
      simp only [Bool.false_eq_true, if_false]; omega
    · have := b hs
      simp only [if_true]; omega
  · intro i j n n' m m' hij hn hm hn' hm' hs
    rcases Nat.lt_or_gt_of_ne hij with hij | hij
    · exact Or.inl (h3 i j n n' m m' hij hn hm hn' hm' hs).2
    · exact Or.inr (h3 j i n' n m' m hij hn' hm' hn hm hs.symm).2

example : defaultResults [.num 8, .num 4, .two 16] false 0 = [⟨0, false⟩, ⟨0, true⟩, ⟨4, true⟩] := by
  decide +kernel

example : Laid (sizesOf [.num 8, .num 4, .two 16]) (defaultResults [.num 8, .num 4, .two 16] false 0) 8
    (spilled (sizesOf [.num 8, .num 4, .two 16]) (defaultResults [.num 8, .num 4, .two 16] false 0)) :=
  default_results_partial _ (by
    intro t ht
    simp only [List.mem_cons, List.not_mem_nil, or_false] at ht
    rcases ht with rfl | rfl | rfl <;> decide)

/-- C88 fails for a slice that is a result: its 24 bytes are put in the register of eight. -/
theorem default_results_fails :
    defaultResults [.slice] false 0 = [⟨0, false⟩] ∧ sizesOf [.slice] = [24] := by decide +kernel

/-- C88: counted in registers, arguments have registers of their own by default. -/
theorem default_args_partial (ts : List RTy) (n : Int) (i j : Nat) (m m' : Mapping) (hij : i < j)
    (t : RTy) (hts : ∀ t ∈ ts, t.size ≠ 0) (ht : ts[i]? = some t)
    (hm : (defaultArgs ts n)[i]? = some m) (hm' : (defaultArgs ts n)[j]? = some m') :
    n ≤ m.offset ∧ m.offset + t.registers ≤ m'.offset := by
  induction ts generalizing n i j with
  | nil => simp at ht
  | cons u us ih =>
    have hu := hts u (List.mem_cons_self ..)
    have hus := fun t ht => hts t (List.mem_cons_of_mem _ ht)
    obtain ⟨j, rfl⟩ : ∃ j', j = j' + 1 := ⟨j - 1, by omega⟩
    rw [defaultArgs, if_neg hu] at hm hm'
    rw [List.getElem?_cons_succ] at hm'
    cases i with
    | zero =>
      rw [List.getElem?_cons_zero, Option.some.injEq] at ht hm
      subst ht; subst hm
      exact ⟨Int.le_refl _, first us hus (n + u.registers) j m' hm'⟩
    | succ i =>
      rw [List.getElem?_cons_succ] at ht hm
      have := ih (n + u.registers) i j (by omega) hus ht hm hm'
      exact ⟨by omega, this.2⟩
where
  first (us : List RTy) (hus : ∀ t ∈ us, t.size ≠ 0) (n : Int) (j : Nat) (m : Mapping)
      (h : (defaultArgs us n)[j]? = some m) : n ≤ m.offset := by
    induction us generalizing n j with
    | nil => simp [defaultArgs] at h
    | cons u us ih =>
      rw [defaultArgs, if_neg (hus u (List.mem_cons_self ..))] at h
      cases j with
      | zero =>
        rw [List.getElem?_cons_zero, Option.some.injEq] at h
        subst h; exact Int.le_refl _
      | succ j =>
        rw [List.getElem?_cons_succ] at h
        have := ih (fun t ht => hus t (List.mem_cons_of_mem _ ht)) _ j h
        omega

example : defaultArgs [.num 8, .two 16, .word] 0 = [⟨0, false⟩, ⟨1, false⟩, ⟨3, false⟩] := by
  decide +kernel

/-- C88 fails: the offsets count registers but are used as offsets of bytes, so the second of two
64-bit arguments overwrites all but one byte of the first. -/
theorem default_args_fails :
    writeAll (defaultArgs [.num 8, .num 8] 0)
      [[1, 1, 1, 1, 1, 1, 1, 1], [2, 2, 2, 2, 2, 2, 2, 2]] (List.replicate 16 0) [] =
    some ([1, 2, 2, 2, 2, 2, 2, 2, 2, 0, 0, 0, 0, 0, 0, 0], []) := by decide +kernel

/-- C88 fails: an argument after a slice gets the place of the slice. -/
theorem default_slice_fails : defaultArgs [.slice, .num 8] 0 = [⟨0, false⟩, ⟨0, false⟩] := by
  decide +kernel

end Verif.Wasm
