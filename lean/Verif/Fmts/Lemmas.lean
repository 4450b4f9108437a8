import Verif.Fmts.Model
import Mathlib.Data.List.Nodup
import Mathlib.Data.List.Dedup
import Mathlib.Data.List.Induction
namespace Verif.Fmts

theorem hasPrefix_iff (s p : Str) : hasPrefix s p = true ↔ p <+: s := by
  induction p generalizing s with
  | nil => cases s <;> simp [hasPrefix]
  | cons c p ih =>
    cases s with
    | nil => simp [hasPrefix]
    | cons d s =>
      simp only [hasPrefix, Bool.and_eq_true, decide_eq_true_eq, ih, List.cons_prefix_cons]
      exact ⟨fun h => ⟨h.1.symm, h.2⟩, fun h => ⟨h.1.symm, h.2⟩⟩

theorem hasSuffix_iff (s p : Str) : hasSuffix s p = true ↔ p <:+ s := by
  unfold hasSuffix
  rw [hasPrefix_iff, List.reverse_prefix]

theorem count_single (s : Str) (c : Char) : count s [c] = s.count c := by
  unfold count
  simp only [List.cons_ne_nil, if_false]
  induction s with
  | nil => rfl
  | cons d s ih =>
    rw [countFrom]
    have hp : hasPrefix (d :: s) [c] = decide (d = c) := by
      cases s <;> simp [hasPrefix]
    rw [hp, List.count_cons]
    by_cases hd : d = c
    · subst hd; simp [ih]
    · simp [hd, ih]

/-! ## bump -/

theorem bump_fst (m : List (Str × Nat)) (k : Str) :
    (bump m k).map Prod.fst = if k ∈ m.map Prod.fst then m.map Prod.fst else m.map Prod.fst ++ [k] := by
  induction m with
  | nil => simp [bump]
  | cons x m ih =>
    obtain ⟨k', n⟩ := x
    rw [bump]
    by_cases h : k' = k
    · subst h; simp
    · have h' : ¬ k = k' := fun e => h e.symm
      simp only [h, if_false, List.map_cons, ih, List.mem_cons, h', false_or]
      split <;> simp

theorem bump_mem (m : List (Str × Nat)) (hnd : (m.map Prod.fst).Nodup) (k k' : Str) (n : Nat) :
    (k', n) ∈ bump m k ↔
      (k' ≠ k ∧ (k', n) ∈ m) ∨ (k' = k ∧ ((∃ j, (k, j) ∈ m ∧ n = j + 1) ∨ (k ∉ m.map Prod.fst ∧ n = 1))) := by
  induction m with
  | nil => simp [bump]
  | cons x m ih =>
    obtain ⟨a, j⟩ := x
    rw [List.map_cons, List.nodup_cons] at hnd
    rw [bump]
    by_cases h : a = k
    · subst h
      simp only [if_true, List.mem_cons, Prod.mk.injEq, List.map_cons]
      have hno : ∀ i, (a, i) ∉ m := fun i hi => hnd.1 (List.mem_map.2 ⟨_, hi, rfl⟩)
      by_cases hk : k' = a
      · subst hk
        constructor
        · rintro (⟨-, rfl⟩ | h)
          · exact Or.inr ⟨rfl, Or.inl ⟨j, Or.inl ⟨trivial, rfl⟩, rfl⟩⟩
          · exact absurd h (hno n)
        · rintro (⟨h, -⟩ | ⟨-, ⟨i, (⟨-, rfl⟩ | hi), rfl⟩ | ⟨h, -⟩⟩)
          · exact absurd rfl h
          · exact Or.inl ⟨rfl, rfl⟩
          · exact absurd hi (hno i)
          · exact absurd (Or.inl trivial) h
      · simp [hk]
    · simp only [h, if_false, List.mem_cons, Prod.mk.injEq, ih hnd.2, List.map_cons]
      have h' : ¬ k = a := fun e => h e.symm
      by_cases hk : k' = k
      · subst hk; simp [h']
      · by_cases hka : k' = a
        · subst hka; simp [hk]
        · simp [hk, hka]

/-- What the counts are after all parts have been counted. -/
theorem bump_all (xs : List Str) :
    ((xs.foldl bump []).map Prod.fst).Nodup ∧
      ∀ k n, (k, n) ∈ xs.foldl bump [] ↔ 0 < n ∧ n = xs.count k := by
  induction xs using List.reverseRecOn with
  | nil => simp; omega
  | append_singleton xs x ih =>
    obtain ⟨hnd, hm⟩ := ih
    rw [List.foldl_append, List.foldl_cons, List.foldl_nil]
    have hkeys : ∀ k, k ∈ (xs.foldl bump []).map Prod.fst ↔ 0 < xs.count k := by
      intro k
      constructor
      · intro h
        obtain ⟨⟨k', n⟩, hmem, rfl⟩ := List.mem_map.1 h
        have := (hm k' n).1 hmem
        show 0 < xs.count k'; omega
      · intro h
        exact List.mem_map.2 ⟨(k, xs.count k), (hm k _).2 ⟨h, rfl⟩, rfl⟩
    constructor
    · rw [bump_fst]
      split
      · exact hnd
      · rename_i hx
        rw [List.nodup_append]
        refine ⟨hnd, by simp, ?_⟩
        intro a ha b hb
        simp only [List.mem_singleton] at hb
        subst hb
        rintro rfl
        exact hx ha
    · intro k n
      rw [bump_mem _ hnd, List.count_append]
      by_cases hk : k = x
      · subst hk
        simp only [ne_eq, not_true_eq_false, false_and, true_and, false_or, List.count_singleton_self, hm, hkeys]
        constructor
        · rintro (⟨j, ⟨h1, h2⟩, rfl⟩ | ⟨h1, rfl⟩) <;> omega
        · rintro ⟨h1, h2⟩
          by_cases h0 : 0 < xs.count k
          · exact Or.inl ⟨xs.count k, ⟨h0, rfl⟩, by omega⟩
          · exact Or.inr ⟨h0, by omega⟩
      · have : List.count k [x] = 0 := by
          rw [List.count_eq_zero]; simpa using hk
        simp [hk, hm, this]

theorem bump_length (xs : List Str) : (xs.foldl bump []).length = xs.dedup.length := by
  obtain ⟨hnd, hm⟩ := bump_all xs
  have : ((xs.foldl bump []).map Prod.fst).Perm xs.dedup := by
    rw [List.perm_ext_iff_of_nodup hnd (List.nodup_dedup xs)]
    intro a
    rw [List.mem_dedup]
    constructor
    · intro h
      obtain ⟨⟨k', n⟩, hmem, rfl⟩ := List.mem_map.1 h
      have := (hm k' n).1 hmem
      have h0 : 0 < xs.count k' := by omega
      exact List.count_pos_iff.1 h0
    · intro h
      exact List.mem_map.2 ⟨(a, xs.count a), (hm a _).2 ⟨List.count_pos_iff.2 h, rfl⟩, rfl⟩
  simpa using this.length_eq

theorem rankSearch_all (value : Str) (m : List (Str × Nat)) (score : Nat) (h : ∀ p ∈ m, count value p.1 = p.2) :
    rankSearch value score m = score + m.length := by
  induction m generalizing score with
  | nil => rfl
  | cons x m ih =>
    obtain ⟨k, n⟩ := x
    have hk := h (k, n) List.mem_cons_self
    simp only at hk
    rw [rankSearch]
    simp only [hk, if_true, List.length_cons]
    rw [ih _ (fun p hp => h p (List.mem_cons_of_mem _ hp))]
    omega

/-! ## The choice -/

/-- What the loop has found among the scores it has seen. -/
def Inv (done : List Nat) (b : Best) : Prop :=
  (done = [] ∧ b.highest = none) ∨
  ∃ h, b.highest = some h ∧ done[b.matches]? = some h ∧ (∀ x ∈ done, x ≤ h) ∧
    (b.sharing > 0 → ∃ j : Nat, j ≠ b.matches ∧ done[j]? = some h) ∧
    (b.sharing = 0 → ∀ j : Nat, done[j]? = some h → j = b.matches)

theorem inv_step (done : List Nat) (b : Best) (hi : Inv done b) (s : Nat) :
    Inv (done ++ [s]) (b.step done.length s) := by
  obtain ⟨hb, mb, sb⟩ := b
  right
  rcases hi with ⟨rfl, hn⟩ | ⟨h, hh, hm, hmax, h1, h2⟩
  · simp only at hn
    subst hn
    refine ⟨s, rfl, rfl, by simp, fun hc => by simp [Best.step] at hc, ?_⟩
    intro _ j hj
    simp only [List.nil_append] at hj
    cases j with
    | zero => rfl
    | succ j => simp at hj
  · simp only at hh hm h1 h2
    subst hh
    have hlt : mb < done.length := (List.getElem?_eq_some_iff.1 hm).1
    by_cases he : h = s
    · subst he
      refine ⟨h, by simp [Best.step], ?_, ?_, ?_, ?_⟩
      · simp only [Best.step, if_true]
        rw [List.getElem?_append_left hlt]; exact hm
      · intro x hx
        rcases List.mem_append.1 hx with hx | hx
        · exact hmax x hx
        · simp at hx; omega
      · intro _
        exact ⟨done.length, by simp [Best.step]; omega, by simp⟩
      · intro hc; simp [Best.step] at hc
    · have hne : ¬ (some h = some s) := by simpa using he
      by_cases hlt' : h < s
      · have hst : Best.step ⟨some h, mb, sb⟩ done.length s = ⟨some s, done.length, 0⟩ := by
          simp [Best.step, he, hlt']
        rw [hst]
        refine ⟨s, rfl, by simp, ?_, fun hc => by simp at hc, ?_⟩
        · intro x hx
          rcases List.mem_append.1 hx with hx | hx
          · have := hmax x hx; omega
          · simp at hx; omega
        · intro _ j hj
          by_cases hjl : j < done.length
          · rw [List.getElem?_append_left hjl] at hj
            have := hmax s (List.mem_of_getElem? hj); omega
          · have hjl' : j < (done ++ [s]).length := (List.getElem?_eq_some_iff.1 hj).1
            simp at hjl'
            simp only
            omega
      · have hst : Best.step ⟨some h, mb, sb⟩ done.length s = ⟨some h, mb, sb⟩ := by
          simp [Best.step, he, hlt']
        rw [hst]
        refine ⟨h, rfl, by rw [List.getElem?_append_left hlt]; exact hm, ?_, ?_, ?_⟩
        · intro x hx
          rcases List.mem_append.1 hx with hx | hx
          · exact hmax x hx
          · simp at hx; omega
        · intro hc
          obtain ⟨j, hj, hjd⟩ := h1 hc
          exact ⟨j, hj, by rw [List.getElem?_append_left (List.getElem?_eq_some_iff.1 hjd).1]; exact hjd⟩
        · intro hc j hj
          by_cases hjl : j < done.length
          · rw [List.getElem?_append_left hjl] at hj
            exact h2 hc j hj
          · have hjl' : j < (done ++ [s]).length := (List.getElem?_eq_some_iff.1 hj).1
            simp at hjl'
            have : j = done.length := by omega
            subst this
            simp at hj
            exact absurd hj.symm he

theorem inv_loop (rest done : List Nat) (b : Best) (hi : Inv done b) : Inv (done ++ rest) (b.loop done.length rest) := by
  induction rest generalizing done b with
  | nil => simpa [Best.loop] using hi
  | cons s rest ih =>
    have := ih (done ++ [s]) (b.step done.length s) (inv_step done b hi s)
    rw [Best.loop]
    simpa using this

end Verif.Fmts
