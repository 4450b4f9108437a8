import Verif.Rest.ScanModel
import Verif.Rest.UrlLemmas
/-!
# Printed integers are read back
-/
namespace Verif.Rest

theorem toDigits_snoc (n : Nat) (h : 10 ≤ n) :
    Nat.toDigits 10 n = Nat.toDigits 10 (n / 10) ++ [Nat.digitChar (n % 10)] :=
  Nat.toDigits_of_base_le (by decide) h

theorem digitChar_facts : ∀ d : Fin 10, baseDigit (Nat.digitChar d.val) = some d.val ∧
    Nat.digitChar d.val ≠ '_' ∧ (d.val ≠ 0 → Nat.digitChar d.val ≠ '0') ∧
    (Nat.digitChar d.val).toNat < 256 ∧ Nat.digitChar d.val ≠ '/' ∧ Nat.digitChar d.val ≠ '-' ∧
    Nat.digitChar d.val ≠ '+' := by decide +kernel

theorem toDigits_all (n : Nat) : ∀ c ∈ Nat.toDigits 10 n, ∃ d : Fin 10, c = Nat.digitChar d.val := by
  induction n using Nat.strongRecOn with
  | _ n ih =>
    by_cases h : n < 10
    · rw [Nat.toDigits_of_lt_base h]
      intro c hc
      exact ⟨⟨n, h⟩, by simpa using hc⟩
    · rw [toDigits_snoc n (by omega)]
      intro c hc
      rcases List.mem_append.mp hc with hc | hc
      · exact ih (n / 10) (by omega) c hc
      · exact ⟨⟨n % 10, by omega⟩, by simpa using hc⟩

theorem toDigits_ne (n : Nat) : Nat.toDigits 10 n ≠ [] := by
  by_cases h : n < 10
  · rw [Nat.toDigits_of_lt_base h]; simp
  · rw [toDigits_snoc n (by omega)]; simp

theorem toDigits_head (n : Nat) (h : 0 < n) : (Nat.toDigits 10 n).head? ≠ some '0' := by
  induction n using Nat.strongRecOn with
  | _ n ih =>
    by_cases hn : n < 10
    · rw [Nat.toDigits_of_lt_base hn]
      have := (digitChar_facts ⟨n, hn⟩).2.2.1 (by simp; omega)
      simpa using this
    · have ih := ih (n / 10) (by omega) (by omega)
      rw [toDigits_snoc n (by omega)]
      obtain ⟨c, t, e⟩ := List.exists_cons_of_ne_nil (toDigits_ne (n / 10))
      rw [e] at ih ⊢
      simpa using ih

theorem numberOf_toDigits (n : Nat) : numberOf 10 (Nat.toDigits 10 n) = n := by
  induction n using Nat.strongRecOn with
  | _ n ih =>
    by_cases h : n < 10
    · rw [Nat.toDigits_of_lt_base h]
      simp [numberOf, (digitChar_facts ⟨n, h⟩).1]
    · rw [toDigits_snoc n (by omega)]
      have := ih (n / 10) (by omega)
      unfold numberOf at this ⊢
      rw [List.foldl_append, this]
      simp [(digitChar_facts ⟨n % 10, by omega⟩).1]
      omega

theorem underscoresOK_digits (s : Str) (h : '_' ∉ s) (prev : Bool) (hp : prev = true ∨ s ≠ []) :
    underscoresOK prev s = true := by
  induction s generalizing prev with
  | nil => simpa [underscoresOK] using hp
  | cons c s ih =>
    rw [List.mem_cons, not_or] at h
    rw [underscoresOK, if_neg (fun e => h.1 e.symm)]
    exact ih h.2 true (Or.inl rfl)

theorem takeWhile_all {α : Type} (p : α → Bool) (l : List α) (h : ∀ x ∈ l, p x = true) :
    l.takeWhile p = l := by
  induction l with
  | nil => rfl
  | cons x xs ih =>
    rw [List.takeWhile_cons, if_pos (h x (List.mem_cons_self ..)),
      ih (fun y hy => h y (List.mem_cons_of_mem _ hy))]

theorem digitsOf_toDigits (n : Nat) : digitsOf 10 false true (Nat.toDigits 10 n) = some n := by
  have hall := toDigits_all n
  have ht : (Nat.toDigits 10 n).takeWhile (accepts 10) = Nat.toDigits 10 n := by
    apply takeWhile_all
    intro c hc
    obtain ⟨d, rfl⟩ := hall c hc
    simp [accepts, (digitChar_facts d).1]
  have hu : '_' ∉ Nat.toDigits 10 n := by
    intro h
    obtain ⟨d, hd⟩ := hall _ h
    exact (digitChar_facts d).2.1 hd.symm
  unfold digitsOf
  simp only [ht]
  have hne : (Nat.toDigits 10 n).isEmpty = false := by
    rw [List.isEmpty_eq_false_iff]; exact toDigits_ne n
  rw [hne, underscoresOK_digits _ hu false (Or.inr (toDigits_ne n)), numberOf_toDigits]
  rfl

theorem scanNat_toDigits (n : Nat) : scanNat (Nat.toDigits 10 n) = some n := by
  rcases Nat.eq_zero_or_pos n with rfl | h
  · rfl
  · have hh := toDigits_head n h
    rw [scanNat.eq_def]
    split
    · next s heq => rw [heq] at hh; simp at hh
    · exact digitsOf_toDigits n

/-- What is printed for an `int` is read back. -/
theorem scan_print (i : Int) (h1 : -2 ^ 63 ≤ i) (h2 : i < 2 ^ 63) : scanInt (printInt i) = some i := by
  unfold printInt
  split
  · simp only [scanInt, scanNat_toDigits, Option.bind_some]
    rw [if_pos (by omega)]
    congr 1; omega
  · have hn := scanNat_toDigits i.natAbs
    have hne := toDigits_ne i.natAbs
    have hall := toDigits_all i.natAbs
    have hlt : i.natAbs < 2 ^ 63 := by omega
    have hi : ((i.natAbs : Nat) : Int) = i := by omega
    generalize Nat.toDigits 10 i.natAbs = t at hn hne hall
    rw [scanInt.eq_def]
    split
    · obtain ⟨d, hd⟩ := hall '-' (List.mem_cons_self ..)
      exact absurd hd.symm (digitChar_facts d).2.2.2.2.2.1
    · obtain ⟨d, hd⟩ := hall '+' (List.mem_cons_self ..)
      exact absurd hd.symm (digitChar_facts d).2.2.2.2.2.2
    · rw [hn]; simp only [Option.bind_some]; rw [if_pos hlt, hi]

theorem printInt_ne (i : Int) : printInt i ≠ [] := by
  unfold printInt; split
  · simp
  · exact toDigits_ne _

theorem printInt_chars (i : Int) : ∀ c ∈ printInt i, IsByte c ∧ c ≠ '/' := by
  have : ∀ c ∈ Nat.toDigits 10 i.natAbs, IsByte c ∧ c ≠ '/' := by
    intro c hc
    obtain ⟨d, rfl⟩ := toDigits_all _ c hc
    exact ⟨(digitChar_facts d).2.2.2.1, (digitChar_facts d).2.2.2.2.1⟩
  unfold printInt; split
  · intro c hc
    rcases List.mem_cons.mp hc with rfl | hc
    · exact ⟨by unfold IsByte; decide, by decide⟩
    · exact this c hc
  · exact this

end Verif.Rest
