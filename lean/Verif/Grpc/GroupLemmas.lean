import Mathlib.Data.List.Induction
import Verif.Grpc.EncLemmas

/-! Facts about `consumeGroup`. -/
namespace Verif.Grpc

theorem low7 (x : UInt8) : (x &&& 0x7f == 0) = decide (x.toNat % 128 = 0) := by
  have h : (x &&& 0x7f).toNat = x.toNat % 128 := by
    rw [UInt8.toNat_and]
    exact Nat.and_two_pow_sub_one_eq_mod x.toNat 7
  rw [Bool.eq_iff_iff]
  simp only [beq_iff_eq, decide_eq_true_eq]
  rw [← h]
  constructor
  · intro e; rw [e]; rfl
  · intro e; exact UInt8.toNat_inj.mp e

/-- Stripping the padding of a number leaves its minimal digits. -/
theorem strip_leb (t : List UInt8) (h : leb t ≠ 0) (hlt : leb t < 2 ^ 64) :
    ∃ u pad, t = u ++ pad ∧ (∀ body, stripPadding (body ++ t) = body ++ u) ∧
      ∀ v : UInt64, v.toNat = leb t → u.length = sizeVarint v := by
  induction t using List.reverseRecOn with
  | nil => simp [leb] at h
  | append_singleton t x ih =>
    by_cases hx : x.toNat % 128 = 0
    · have e : leb (t ++ [x]) = leb t := by simp [leb_append, leb, hx]
      rw [e] at h hlt
      obtain ⟨u, pad, e1, e2, e3⟩ := ih h hlt
      refine ⟨u, pad ++ [x], by rw [e1]; simp, ?_, ?_⟩
      · intro body
        rw [← e2 body]
        unfold stripPadding
        simp [low7, hx]
      · intro v hv; exact e3 v (by rw [hv, e])
    · refine ⟨t ++ [x], [], by simp, ?_, ?_⟩
      · intro body
        unfold stripPadding
        simp [low7, hx]
      · intro v hv
        have e : leb (t ++ [x]) = leb t + 128 ^ t.length * (x.toNat % 128) := by
          simp [leb_append, leb]
        have hlo : 128 ^ t.length ≤ v.toNat := by
          rw [hv, e]
          have : 128 ^ t.length * 1 ≤ 128 ^ t.length * (x.toNat % 128) :=
            Nat.mul_le_mul_left _ (by omega)
          omega
        have hhi : v.toNat < 128 ^ (t.length + 1) := by
          rw [hv]; have := leb_lt (t ++ [x]); simpa using this
        have p : ∀ k, 128 ^ k = 2 ^ (7 * k) := fun k => by rw [Nat.pow_mul]
        rw [p] at hlo hhi
        have l1 := len64_lower v _ hlo
        have l2 := len64_bounds v _ hhi
        have l3 := len64_bounds v 64 v.toNat_lt
        have : t.length ≤ 9 := by
          apply Decidable.byContradiction; intro hc; omega
        rw [List.length_append, List.length_singleton]
        unfold sizeVarint
        omega

theorem group_split {d num : Nat} {bs : List UInt8} (h : IsGroup d num bs) :
    ∃ body t, bs = body ++ t ∧ IsTag t num 4 := by
  induction h using IsGroup.rec (motive_1 := fun _ _ _ _ _ => True) with
  | varint => trivial
  | fixed64 => trivial
  | bytes => trivial
  | group => trivial
  | fixed32 => trivial
  | done h => exact ⟨[], _, rfl, h⟩
  | field h1 h2 h3 _ ih =>
    rename_i t v rest _
    obtain ⟨body, t', e, h⟩ := ih
    exact ⟨t ++ v ++ body, t', by rw [e]; simp, h⟩

theorem sizeTag_eq {num : Nat} (h1 : 1 ≤ num) (h2 : num < 2 ^ 31) (v : UInt64) (hv : v.toNat = num * 8 + 4) :
    sizeVarint v = sizeTag num := by
  unfold sizeTag sizeVarint
  rw [len64_tag num 4 h1 (by omega) (by decide) v hv,
    len64_tag num 0 h1 (by omega) (by decide) _ (by rw [encodeTag_toNat num 0 (by omega)]; rfl)]

theorem strip_tag {num : Nat} {body t : List UInt8} (h : IsTag t num 4) :
    sizeTag num ≤ (stripPadding (body ++ t)).length ∧
    (stripPadding (body ++ t)).take ((stripPadding (body ++ t)).length - sizeTag num) = body := by
  obtain ⟨⟨_, _, h3, h4⟩, _, h1, h2⟩ := h
  obtain ⟨u, pad, e1, e2, e3⟩ := strip_leb t (by omega) (by omega)
  have := e3 (UInt64.ofNat (num * 8 + 4)) (by
    rw [h3, UInt64.toNat_ofNat', Nat.mod_eq_of_lt h4])
  rw [sizeTag_eq h1 h2 _ (by rw [UInt64.toNat_ofNat', Nat.mod_eq_of_lt h4])] at this
  rw [e2 body]
  constructor
  · rw [List.length_append]; omega
  · rw [List.length_append, this]; simp

end Verif.Grpc
