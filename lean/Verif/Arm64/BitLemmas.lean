import Verif.Arm64.BitFin
import Mathlib.Tactic.IntervalCases
namespace Verif.Arm64
open Spec

theorem find64_some {imm : BitVec 64} {S R : Nat} (h : find64 imm = some (S, R)) : S < 64 ∧ R < 64 ∧ rotated64 S R = imm := by
  unfold find64 at h
  obtain ⟨S', hS, h⟩ := List.exists_of_findSome?_eq_some h
  obtain ⟨R', hR, h⟩ := List.exists_of_findSome?_eq_some h
  split at h
  · rename_i he
    simp only [Option.some.injEq, Prod.mk.injEq] at h
    obtain ⟨rfl, rfl⟩ := h
    exact ⟨by simpa using hS, by simpa using hR, by simpa using he⟩
  · cases h

theorem find64_isSome (S R : Nat) (hS : S < 64) (hR : R < 64) : (find64 (rotated64 S R)).isSome := by
  unfold find64
  simp only [List.findSome?_isSome_iff, List.mem_range]
  exact ⟨S, hS, R, hR, by simp⟩

theorem land_succ (x : Nat) (h : x &&& (x + 1) = 0) : ∃ k, x = 2 ^ k - 1 := by
  induction x using Nat.strongRecOn with
  | ind x ih =>
    rcases Nat.eq_zero_or_pos x with rfl | hx
    · exact ⟨0, rfl⟩
    · have hd : x / 2 &&& (x + 1) / 2 = 0 := by rw [← Nat.and_div_two, h]
      rcases Nat.mod_two_eq_zero_or_one x with he | ho
      · rw [show (x + 1) / 2 = x / 2 by omega, Nat.and_self] at hd
        omega
      · rw [show (x + 1) / 2 = x / 2 + 1 by omega] at hd
        obtain ⟨k, hk⟩ := ih (x / 2) (by omega) hd
        exact ⟨k + 1, by have := Nat.one_le_two_pow (n := k); rw [Nat.pow_succ]; omega⟩

theorem consecutive {v : BitVec 64} (h : isConsecutiveOnes v = true) : ∃ k, 1 ≤ k ∧ k ≤ 64 ∧ v = BitVec.ofNat 64 (2 ^ k - 1) := by
  simp only [isConsecutiveOnes, Bool.and_eq_true, decide_eq_true_eq, beq_iff_eq] at h
  obtain ⟨h0, h⟩ := h
  have hn : v.toNat ≠ 0 := fun hh => h0 (BitVec.eq_of_toNat_eq (by simpa using hh))
  by_cases hm : v.toNat + 1 < 2 ^ 64
  · have : (v + 1).toNat = v.toNat + 1 := by rw [BitVec.toNat_add, Nat.mod_eq_of_lt]; rfl; exact hm
    have h := congrArg BitVec.toNat h
    rw [BitVec.toNat_and, this, Nat.and_comm] at h
    obtain ⟨k, hk⟩ := land_succ _ h
    have hk1 : k < 64 := by
      rw [hk] at hm
      have := Nat.one_le_two_pow (n := k)
      exact (Nat.pow_lt_pow_iff_right (by omega : 1 < 2)).mp (by omega)
    refine ⟨k, ?_, by omega, ?_⟩
    · rcases Nat.eq_zero_or_pos k with rfl | h; exact absurd hk hn; exact h
    · apply BitVec.eq_of_toNat_eq
      rw [BitVec.toNat_ofNat, Nat.mod_eq_of_lt (by rw [← hk]; exact v.isLt), hk]
  · refine ⟨64, by omega, by omega, BitVec.eq_of_toNat_eq ?_⟩
    have := v.isLt
    simp only [BitVec.toNat_ofNat]
    omega

theorem onesE_get : ∀ E : Fin 33, ∀ i : Fin 64, (onesE E.1).getLsbD i.1 = decide (i.1 < E.1) := by decide +kernel

theorem onesE_getLsbD {E i : Nat} (hE : E ≤ 32) : (onesE E).getLsbD i = decide (i < E) := by
  by_cases hi : i < 64
  · exact onesE_get ⟨E, by omega⟩ ⟨i, hi⟩
  · rw [BitVec.getLsbD_of_ge _ _ (by omega)]; simp; omega

theorem rotatedE_get {E R i : Nat} (p : BitVec 64) (hE : E ≤ 32) : (rotatedE E R p).getLsbD i =
    (p.getLsbD (R + i) || (decide (i < 64) && !decide (i < E - R) && p.getLsbD (i - (E - R)) && decide (i < E))) := by
  simp only [rotatedE, BitVec.getLsbD_or, BitVec.getLsbD_ushiftRight, BitVec.getLsbD_and, BitVec.getLsbD_shiftLeft, onesE_getLsbD hE]

theorem rotatedE_inv {E R : Nat} (p : BitVec 64) (hE : E ≤ 32) (hR : R < E) (hp : ∀ i, E ≤ i → p.getLsbD i = false) :
    rotatedE E (E - R) (rotatedE E R p) = p := by
  apply BitVec.eq_of_getLsbD_eq
  intro i hi
  rw [rotatedE_get _ hE, rotatedE_get _ hE, rotatedE_get _ hE]
  by_cases h1 : i < R
  · simp only [show R + (E - R + i) = E + i by omega, hp (E + i) (by omega), show E - R + i < 64 by omega,
      show E - R + i < E by omega, show ¬ E - R + i < E - R by omega, show E - R + i - (E - R) = i by omega,
      show i < E - (E - R) by omega]
    simp
  · by_cases h2 : i < E
    · simp only [show R + (E - R + i) = E + i by omega, hp (E + i) (by omega), show ¬ E - R + i < E by omega, h2,
        show i - (E - (E - R)) = i - R by omega, show R + (i - R) = i by omega, show ¬ i < E - (E - R) by omega,
        show i - R < E - R by omega]
      simp; omega
    · simp [hp i (by omega), h2, hp (R + (E - R + i)) (by omega), show ¬ E - R + i < E by omega]

theorem mem_sizes (e : Fin 5) : 2 ^ (e.1 + 1) ∈ [2, 4, 8, 16, 32, 64] ∧ 2 ^ (e.1 + 1) ≤ 32 := by revert e; decide

theorem sizes_mem {E : Nat} (h : E ∈ [2, 4, 8, 16, 32, 64]) : E = 64 ∨ ∃ e : Fin 5, E = 2 ^ (e.1 + 1) := by
  simp only [List.mem_cons, List.not_mem_nil, or_false] at h
  rcases h with rfl | rfl | rfl | rfl | rfl | rfl
  · exact Or.inr ⟨0, rfl⟩
  · exact Or.inr ⟨1, rfl⟩
  · exact Or.inr ⟨2, rfl⟩
  · exact Or.inr ⟨3, rfl⟩
  · exact Or.inr ⟨4, rfl⟩
  · exact Or.inl rfl

theorem encode_isSome_of {v : BitVec 64} {E : Nat} (h0 : v ≠ 0) (h1 : v ≠ 0xFFFFFFFFFFFFFFFF) (hE : E ∈ [2, 4, 8, 16, 32, 64])
    (h : (encodeE v E).isSome) : (encode v).isSome := by
  unfold encode
  rw [if_neg (by simp only [Bool.or_eq_true, beq_iff_eq, not_or]; exact ⟨h0, h1⟩), List.findSome?_isSome_iff]
  exact ⟨E, hE, h⟩

theorem accepts {v : BitVec 64} (h : IsLogicalImmediate v) : (encode v).isSome := by
  obtain ⟨N, immr, imms, h⟩ := h
  have hr : immr = BitVec.ofNat 6 (⟨immr.toNat, immr.isLt⟩ : Fin 64).1 := by simp
  have hs : imms = BitVec.ofNat 6 (⟨imms.toNat, imms.isLt⟩ : Fin 64).1 := by simp
  have hN : N = 0 ∨ N = 1 := by clear h; revert N; decide
  rcases hN with rfl | rfl
  · rw [hr, hs] at h
    have := decode_small ⟨immr.toNat, immr.isLt⟩ ⟨imms.toNat, imms.isLt⟩
    rw [h] at this
    simp only [Option.all_some, Bool.and_eq_true, bne_iff_ne, decide_eq_true_eq, beq_iff_eq] at this
    obtain ⟨⟨⟨h0, h1⟩, hk⟩, hv⟩ := this
    have hm := mem_sizes (sizeIdx imms.toNat)
    have hp : 0 < 2 ^ ((sizeIdx imms.toNat).1 + 1) := Nat.two_pow_pos _
    refine encode_isSome_of h0 h1 hm.1 ?_
    rw [hv]
    have hlt := Nat.mod_lt immr.toNat hp
    exact accept_small (sizeIdx imms.toNat) ⟨immr.toNat % 2 ^ ((sizeIdx imms.toNat).1 + 1), by omega⟩
      ⟨imms.toNat % 2 ^ ((sizeIdx imms.toNat).1 + 1) + 1, by omega⟩ hlt (by simp) hk
  · by_cases h63 : imms.toNat = 63
    · have := decode64_last ⟨immr.toNat, immr.isLt⟩
      rw [hr, hs] at h
      simp only [h63] at h
      rw [show BitVec.ofNat 6 63 = (63 : BitVec 6) from rfl, this.2] at h
      cases h
    · have hlt : imms.toNat < 63 := by have := imms.isLt; omega
      rw [hr, hs] at h
      have hd := decode64 ⟨imms.toNat, hlt⟩ ⟨immr.toNat, immr.isLt⟩
      rw [hd] at h
      simp only [Option.some.injEq] at h
      have he := rotated64_ends ⟨imms.toNat, hlt⟩ ⟨immr.toNat, immr.isLt⟩
      rw [← h]
      refine encode_isSome_of he.1 he.2 (E := 64) (by simp) ?_
      have := find64_isSome imms.toNat immr.toNat imms.isLt immr.isLt
      simp only [encodeE, beq_self_eq_true, if_true, Option.isSome_map]
      exact this

theorem encode_some {v : BitVec 64} {e : Nat × Nat × Nat} (h : encode v = some e) :
    v ≠ 0 ∧ v ≠ 0xFFFFFFFFFFFFFFFF ∧ ∃ E ∈ [2, 4, 8, 16, 32, 64], encodeE v E = some e := by
  unfold encode at h
  split at h
  · cases h
  · rename_i hn
    simp only [Bool.or_eq_true, beq_iff_eq, not_or] at hn
    exact ⟨hn.1, hn.2, List.exists_of_findSome?_eq_some h⟩

theorem sound64 {v : BitVec 64} {n r s : Nat} (hv : v ≠ 0xFFFFFFFFFFFFFFFF) (h : encodeE v 64 = some (n, r, s)) :
    n = 1 ∧ decodeBitMasks 1 (BitVec.ofNat 6 r) (BitVec.ofNat 6 s) = some v := by
  simp only [encodeE, beq_self_eq_true, if_true, Option.map_eq_some_iff, Prod.mk.injEq, Prod.exists] at h
  obtain ⟨S, R, h, rfl, rfl, rfl⟩ := h
  obtain ⟨hS, hR, he⟩ := find64_some h
  refine ⟨rfl, ?_⟩
  by_cases h63 : S = 63
  · subst h63
    exact absurd (he.symm.trans (decode64_last ⟨R, hR⟩).1) hv
  · rw [← he]; exact decode64 ⟨S, by omega⟩ ⟨R, hR⟩

theorem small_n {v : BitVec 64} {n r s : Nat} (e : Fin 5) (h : encodeE v (2 ^ (e.1 + 1)) = some (n, r, s)) : n = 0 := by
  have : ((2 ^ (e.1 + 1) == 64) = true) = False := by simp; have := (mem_sizes e).2; omega
  simp only [encodeE, this, if_false] at h
  split at h
  · simp only [Option.map_eq_some_iff, Prod.mk.injEq, Prod.exists] at h
    obtain ⟨_, _, _, rfl, _⟩ := h; rfl
  · cases h

theorem pow_sub_one_getLsbD (k i : Nat) : (BitVec.ofNat 64 (2 ^ k - 1)).getLsbD i = (decide (i < 64) && decide (i < k)) := by
  rw [BitVec.getLsbD_ofNat, Nat.testBit_two_pow_sub_one]

theorem small_imm {v : BitVec 64} (hv : v ≠ 0xFFFFFFFFFFFFFFFF) (e : Fin 5) (h : (encodeE v (2 ^ (e.1 + 1))).isSome) : IsLogicalImmediate v := by
  have hE := (mem_sizes e).2
  have h64 : ((2 ^ (e.1 + 1) == 64) = true) = False := by simp; omega
  simp only [encodeE, h64, if_false] at h
  split at h
  · rename_i hrep
    simp only [Option.isSome_map, findE, List.findSome?_isSome_iff, List.mem_range] at h
    obtain ⟨R, hR, h⟩ := h
    split at h
    · rename_i hc
      simp only [Bool.and_eq_true] at hc
      obtain ⟨k, hk1, hk2, hk⟩ := consecutive hc.1
      generalize hp : v &&& onesE (2 ^ (e.1 + 1)) = p at hrep hk
      have hpE : ∀ i, 2 ^ (e.1 + 1) ≤ i → p.getLsbD i = false := by
        intro i hi
        rw [← hp, BitVec.getLsbD_and, onesE_getLsbD hE]
        simp; omega
      have hinv := rotatedE_inv p hE hR hpE
      rw [hk] at hinv
      have hv' : v = repeated (2 ^ (e.1 + 1)) (rotatedE (2 ^ (e.1 + 1)) (2 ^ (e.1 + 1) - R) (BitVec.ofNat 64 (2 ^ k - 1))) := by
        rw [hinv]; simpa using (beq_iff_eq.mp hrep).symm
      have hkE : k ≤ 2 ^ (e.1 + 1) := by
        by_contra hcon
        have h1 := congrArg (fun x => BitVec.getLsbD x (2 ^ (e.1 + 1))) hk
        simp only [pow_sub_one_getLsbD, rotatedE_get p hE, hpE (R + 2 ^ (e.1 + 1)) (by omega)] at h1
        simp at h1
        omega
      by_cases hlast : k = 2 ^ (e.1 + 1)
      · exfalso; apply hv
        rw [hv', hlast]
        have : ∀ e : Fin 5, ∀ R : Fin 32, R.1 < 2 ^ (e.1 + 1) → repeated (2 ^ (e.1 + 1)) (rotatedE (2 ^ (e.1 + 1)) (2 ^ (e.1 + 1) - R.1)
          (BitVec.ofNat 64 (2 ^ (2 ^ (e.1 + 1)) - 1))) = 0xFFFFFFFFFFFFFFFF := by decide +kernel
        exact this e ⟨R, by omega⟩ hR
      · have := small_ok e ⟨R, by omega⟩ ⟨k, by omega⟩ hR hk1 (by simp; omega)
        exact ⟨_, _, _, by rw [hv']; exact this⟩
    · cases h
  · cases h

theorem accepted_imm {v : BitVec 64} (h : (encode v).isSome) : IsLogicalImmediate v := by
  obtain ⟨⟨n, r, s⟩, he⟩ := Option.isSome_iff_exists.mp h
  obtain ⟨_, hv, E, hE, hen⟩ := encode_some he
  rcases sizes_mem hE with rfl | ⟨e, rfl⟩
  · exact ⟨_, _, _, (sound64 hv hen).2⟩
  · exact small_imm hv e (by rw [hen]; rfl)

theorem encode_bounds {v : BitVec 64} {n r s : Nat} (h : encode v = some (n, r, s)) : n < 2 ∧ r < 64 ∧ s < 64 := by
  obtain ⟨_, hv, E, hE, hen⟩ := encode_some h
  rcases sizes_mem hE with rfl | ⟨e, rfl⟩
  · simp only [encodeE, beq_self_eq_true, if_true, Option.map_eq_some_iff, Prod.mk.injEq, Prod.exists] at hen
    obtain ⟨S, R, hf, rfl, rfl, rfl⟩ := hen
    obtain ⟨hS, hR, he⟩ := find64_some hf
    exact ⟨by omega, hR, hS⟩
  · have hE := (mem_sizes e).2
    have h64 : ((2 ^ (e.1 + 1) == 64) = true) = False := by simp; omega
    simp only [encodeE, h64, if_false] at hen
    split at hen
    · simp only [Option.map_eq_some_iff, Prod.mk.injEq, Prod.exists] at hen
      obtain ⟨S, R, hf, rfl, rfl, rfl⟩ := hen
      obtain ⟨R', hR, h⟩ := List.exists_of_findSome?_eq_some hf
      split at h
      · rename_i hc
        simp only [Bool.and_eq_true, decide_eq_true_eq] at hc
        simp only [Option.some.injEq, Prod.mk.injEq] at h
        obtain ⟨rfl, rfl⟩ := h
        simp only [List.mem_range] at hR
        exact ⟨by omega, by omega, by omega⟩
      · cases h
    · cases hen

theorem foldl_or_get (p : BitVec 64) (E : Nat) (l : List Nat) (acc : BitVec 64) (i : Nat) :
    (l.foldl (fun acc k => acc ||| (p <<< (k * E))) acc).getLsbD i = (acc.getLsbD i || l.any fun k => (p <<< (k * E)).getLsbD i) := by
  induction l generalizing acc with
  | nil => simp
  | cons a l ih => rw [List.foldl_cons, ih]; simp [Bool.or_assoc]

theorem repeated_get (e : Fin 5) (v : BitVec 64) (i : Nat) (hi : i < 64) :
    (repeated (2 ^ (e.1 + 1)) (v &&& onesE (2 ^ (e.1 + 1)))).getLsbD i = v.getLsbD (i % 2 ^ (e.1 + 1)) := by
  have hE := (mem_sizes e).2
  have hp : 0 < 2 ^ (e.1 + 1) := Nat.two_pow_pos _
  have hd : 64 / 2 ^ (e.1 + 1) * 2 ^ (e.1 + 1) = 64 := by revert e; decide
  generalize 2 ^ (e.1 + 1) = E at *
  unfold repeated
  rw [foldl_or_get]
  rw [show (0 : BitVec 64).getLsbD i = false from BitVec.getLsbD_zero, Bool.false_or]
  simp only [BitVec.getLsbD_shiftLeft, BitVec.getLsbD_and, onesE_getLsbD hE, hi, decide_true, Bool.true_and]
  have hq : i / E * E + i % E = i := Nat.div_add_mod' i E
  have hlt := Nat.mod_lt i hp
  by_cases hv : v.getLsbD (i % E) = true
  · rw [hv, List.any_eq_true]
    refine ⟨i / E, ?_, ?_⟩
    · rw [List.mem_range]
      apply (Nat.div_lt_iff_lt_mul hp).mpr
      omega
    · rw [show i - i / E * E = i % E by omega, hv]
      simp only [Bool.true_and, Bool.and_eq_true, decide_eq_true_eq, Bool.not_eq_true', decide_eq_false_iff_not]
      omega
  · rw [Bool.not_eq_true] at hv
    rw [hv, List.any_eq_false]
    intro k hk
    simp only [Bool.and_eq_true, decide_eq_true_eq, Bool.not_eq_true', decide_eq_false_iff_not]
    rintro ⟨h1, h2, h3⟩
    have : i % E = i - k * E := by
      have h4 : i = (i - k * E) + E * k := by rw [Nat.mul_comm E k]; omega
      have h5 := Nat.add_mul_mod_self_left (i - k * E) E k
      rw [← h4, Nat.mod_eq_of_lt h3] at h5
      exact h5
    rw [this, h2] at hv; cases hv

theorem repeated_rotate (e : Fin 5) (v : BitVec 64) (h : repeated (2 ^ (e.1 + 1)) (v &&& onesE (2 ^ (e.1 + 1))) = v) :
    v.rotateRight (2 ^ (e.1 + 1)) = v := by
  have hd : 2 ^ (e.1 + 1) * (64 / 2 ^ (e.1 + 1)) = 64 := by clear h; revert e; decide
  have hv : ∀ i, i < 64 → v.getLsbD i = v.getLsbD (i % 2 ^ (e.1 + 1)) := by
    intro i hi
    rw [← repeated_get e v i hi, h]
  have hE := (mem_sizes e).2
  have hp : 0 < 2 ^ (e.1 + 1) := Nat.two_pow_pos _
  generalize 2 ^ (e.1 + 1) = E at *
  apply BitVec.eq_of_getLsbD_eq
  intro i hi
  rw [BitVec.getLsbD_rotateRight, Nat.mod_eq_of_lt (show E < 64 by omega)]
  by_cases hc : i < 64 - E
  · rw [decide_eq_true hc, cond_true, hv (E + i) (by omega), hv i hi, Nat.add_mod_left]
  · rw [decide_eq_false hc, cond_false, decide_eq_true hi, Bool.true_and, hv (i - (64 - E)) (by omega), hv i hi]
    congr 1
    have h1 : i = (i - (64 - E)) + E * (64 / E - 1) := by rw [Nat.mul_sub, hd]; omega
    have h2 := Nat.add_mul_mod_self_left (i - (64 - E)) E (64 / E - 1)
    rw [← h1] at h2
    exact h2.symm

end Verif.Arm64
