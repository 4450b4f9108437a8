import Verif.Grpc.Model
import Verif.Grpc.Spec
import Mathlib.Tactic.IntervalCases

/-! Proof machinery for the wire primitives. -/
namespace Verif.Grpc

theorem leb_append (a b : List UInt8) : leb (a ++ b) = leb a + 128 ^ a.length * leb b := by
  induction a with
  | nil => simp [leb]
  | cons x t ih => simp [leb, ih, Nat.pow_succ]; rw [Nat.mul_add]; rw [Nat.mul_comm (128 ^ t.length) 128, Nat.mul_assoc]; omega

theorem leb_lt (a : List UInt8) : leb a < 128 ^ a.length := by
  induction a with
  | nil => simp [leb]
  | cons x t ih => simp [leb, Nat.pow_succ]; omega

theorem leb_take_succ {b : List UInt8} {i : Nat} {x : UInt8} (h : b[i]? = some x) :
    leb (b.take (i+1)) = leb (b.take i) + 128 ^ i * (x.toNat % 128) := by
  have hlt := (List.getElem?_eq_some_iff.mp h).1
  rw [List.take_add_one, h]
  simp [leb_append, leb, Nat.min_eq_left (Nat.le_of_lt hlt)]

/-- What a run of `consumeVarint` on `b` may return. -/
def VarintResult (b : List UInt8) (r : UInt64 × Int) : Prop :=
  (r = (0, errTruncated) ∧ b.length < 10 ∧ ∀ x ∈ b, 128 ≤ x.toNat) ∨
  (r = (0, errOverflow) ∧ (∀ j < 9, ∃ x, b[j]? = some x ∧ 128 ≤ x.toNat) ∧
    ∃ x, b[9]? = some x ∧ 2 ≤ x.toNat) ∨
  (∃ k : Nat, k < 10 ∧ (∀ j < k, ∃ x, b[j]? = some x ∧ 128 ≤ x.toNat) ∧
    (∃ x, b[k]? = some x ∧ x.toNat < 128 ∧ (k = 9 → x.toNat < 2)) ∧
    r.2 = (k : Int) + 1 ∧ r.1.toNat = leb (b.take (k+1)))

def StageInv (b : List UInt8) (i : Nat) (v : UInt64) : Prop :=
  v.toNat = leb (b.take i) ∧ ∀ j < i, ∃ x, b[j]? = some x ∧ 128 ≤ x.toNat

theorem all_cont_of_none {b : List UInt8} {i : Nat} (hn : b[i]? = none)
    (h : ∀ j < i, ∃ x, b[j]? = some x ∧ 128 ≤ x.toNat) : ∀ x ∈ b, 128 ≤ x.toNat := by
  intro x hx
  obtain ⟨j, hj, rfl⟩ := List.getElem_of_mem hx
  have hlen : b.length ≤ i := by simpa using hn
  obtain ⟨y, hy, hy2⟩ := h j (by omega)
  rw [List.getElem?_eq_getElem hj] at hy
  cases hy; exact hy2

theorem stage_spec {b : List UInt8} {i : Nat} {shift : UInt64} {v : UInt64} {k}
    (hi : i < 9) (hs : ∀ y : UInt64, y.toNat < 256 → (y <<< shift).toNat = y.toNat * 128 ^ i)
    (inv : StageInv b i v)
    (hk : ∀ w, StageInv b (i+1) w → VarintResult b (k w)) :
    VarintResult b (consumeStage b i shift 0x80 v k) := by
  unfold consumeStage
  have hP : 256 * 128 ^ i ≤ 2 ^ 64 := by
    interval_cases i <;> decide
  split
  · rename_i hn
    refine Or.inl ⟨rfl, ?_, all_cont_of_none hn inv.2⟩
    have : b.length ≤ i := by simpa using hn
    omega
  · rename_i x hx
    have hxlt : x.toNat < 256 := by have := x.toNat_lt; omega
    have hlebi : leb (b.take i) < 128 ^ i := by
      have := leb_lt (b.take i)
      have hl := (List.getElem?_eq_some_iff.mp hx).1
      rwa [List.length_take, Nat.min_eq_left (Nat.le_of_lt hl)] at this
    have hy : (x.toUInt64 <<< shift).toNat = x.toNat * 128 ^ i := by
      rw [hs]; · simp
      · simpa using hxlt
    have h80 : ((0x80 : UInt64) <<< shift).toNat = 128 * 128 ^ i := by
      rw [hs]; · rfl
      · decide
    have hmul : x.toNat * 128 ^ i ≤ 255 * 128 ^ i := Nat.mul_le_mul_right _ (by omega)
    have hsum : (v + (x.toUInt64 <<< shift)).toNat = v.toNat + x.toNat * 128 ^ i := by
      rw [UInt64.toNat_add, hy]
      apply Nat.mod_eq_of_lt
      have := inv.1
      omega
    dsimp only
    split
    · rename_i hlt
      have hxs : x.toNat < 128 := by
        have := UInt64.lt_iff_toNat_lt.mp hlt
        simpa using this
      refine Or.inr (Or.inr ⟨i, by omega, inv.2, ⟨x, hx, hxs, by omega⟩, rfl, ?_⟩)
      simp only
      rw [hsum, leb_take_succ hx, inv.1, Nat.mod_eq_of_lt hxs, Nat.mul_comm]
    · rename_i hge
      have hxs : 128 ≤ x.toNat := by
        have := fun h => hge (UInt64.lt_iff_toNat_lt.mpr h)
        simpa using this
      apply hk
      have hmul2 : 128 * 128 ^ i ≤ x.toNat * 128 ^ i := Nat.mul_le_mul_right _ hxs
      refine ⟨?_, ?_⟩
      · rw [UInt64.toNat_sub_of_le, hsum, h80, leb_take_succ hx, inv.1]
        · have hm : x.toNat % 128 = x.toNat - 128 := by omega
          rw [hm, Nat.mul_comm (128 ^ i), Nat.sub_mul]
          omega
        · rw [UInt64.le_iff_toNat_le, hsum, h80]; omega
      · intro j hj
        rcases Nat.lt_or_ge j i with h | h
        · exact inv.2 j h
        · have : j = i := by omega
          subst this
          exact ⟨x, hx, hxs⟩

theorem stage9_spec {b : List UInt8} {v : UInt64} (inv : StageInv b 9 v) :
    VarintResult b (consumeStage b 9 63 2 v fun _ => (0, errOverflow)) := by
  unfold consumeStage
  split
  · rename_i hn
    refine Or.inl ⟨rfl, ?_, all_cont_of_none hn inv.2⟩
    have : b.length ≤ 9 := by simpa using hn
    omega
  · rename_i x hx
    dsimp only
    split
    · rename_i hlt
      have hxs : x.toNat < 2 := by
        have := UInt64.lt_iff_toNat_lt.mp hlt
        simpa using this
      refine Or.inr (Or.inr ⟨9, by omega, inv.2, ⟨x, hx, by omega, fun _ => hxs⟩, rfl, ?_⟩)
      have hl := (List.getElem?_eq_some_iff.mp hx).1
      have hlebi : leb (b.take 9) < 128 ^ 9 := by
        have := leb_lt (b.take 9)
        rwa [List.length_take, Nat.min_eq_left (Nat.le_of_lt hl)] at this
      have hv := inv.1
      rw [leb_take_succ hx, UInt64.toNat_add, UInt64.toNat_shiftLeft, hv, Nat.shiftLeft_eq]
      simp
      omega
    · rename_i hge
      have hxs : 2 ≤ x.toNat := by
        have := fun h => hge (UInt64.lt_iff_toNat_lt.mpr h)
        simpa using this
      exact Or.inr (Or.inl ⟨rfl, inv.2, ⟨x, hx, hxs⟩⟩)

theorem consumeVarint_result (b : List UInt8) : VarintResult b (consumeVarint b) := by
  unfold consumeVarint
  have h0 : StageInv b 0 0 := ⟨by simp [leb], by omega⟩
  refine stage_spec (i := 0) (by omega) ?_ h0 fun w h1 => ?_
  · intro y hy; simp [UInt64.toNat_shiftLeft]
  refine stage_spec (i := 1) (by omega) ?_ h1 fun w h2 => ?_
  · intro y hy; simp [UInt64.toNat_shiftLeft, Nat.shiftLeft_eq]; omega
  refine stage_spec (i := 2) (by omega) ?_ h2 fun w h3 => ?_
  · intro y hy; simp [UInt64.toNat_shiftLeft, Nat.shiftLeft_eq]; omega
  refine stage_spec (i := 3) (by omega) ?_ h3 fun w h4 => ?_
  · intro y hy; simp [UInt64.toNat_shiftLeft, Nat.shiftLeft_eq]; omega
  refine stage_spec (i := 4) (by omega) ?_ h4 fun w h5 => ?_
  · intro y hy; simp [UInt64.toNat_shiftLeft, Nat.shiftLeft_eq]; omega
  refine stage_spec (i := 5) (by omega) ?_ h5 fun w h6 => ?_
  · intro y hy; simp [UInt64.toNat_shiftLeft, Nat.shiftLeft_eq]; omega
  refine stage_spec (i := 6) (by omega) ?_ h6 fun w h7 => ?_
  · intro y hy; simp [UInt64.toNat_shiftLeft, Nat.shiftLeft_eq]; omega
  refine stage_spec (i := 7) (by omega) ?_ h7 fun w h8 => ?_
  · intro y hy; simp [UInt64.toNat_shiftLeft, Nat.shiftLeft_eq]; omega
  refine stage_spec (i := 8) (by omega) ?_ h8 fun w h9 => ?_
  · intro y hy; simp [UInt64.toNat_shiftLeft, Nat.shiftLeft_eq]; omega
  exact stage9_spec h9

/-! ### appending -/

theorem contByte_toNat (v k : UInt64) (hk : k.toNat < 64) :
    (contByte v k).toNat = (v.toNat / 2 ^ k.toNat) % 128 + 128 := by
  unfold contByte
  have h1 : ((v >>> k) &&& 0x7f).toNat = (v.toNat / 2 ^ k.toNat) % 128 := by
    rw [UInt64.toNat_and, UInt64.toNat_shiftRight, Nat.mod_eq_of_lt hk, Nat.shiftRight_eq_div_pow]
    exact Nat.and_two_pow_sub_one_eq_mod _ 7
  have h2 : (((v >>> k) &&& 0x7f) ||| 0x80).toNat = (v.toNat / 2 ^ k.toNat) % 128 + 128 := by
    rw [UInt64.toNat_or, h1]
    have hlt : (v.toNat / 2 ^ k.toNat) % 128 < 2 ^ 7 := Nat.mod_lt _ (by decide)
    have := Nat.two_pow_add_eq_or_of_lt hlt 1
    rw [Nat.or_comm]
    have e : (0x80 : UInt64).toNat = 2 ^ 7 * 1 := rfl
    rw [e, ← this]; omega
  rw [UInt64.toNat_toUInt8, h2]
  omega

theorem lastByte_toNat (v k : UInt64) (hk : k.toNat < 64) :
    (lastByte v k).toNat = (v.toNat / 2 ^ k.toNat) % 256 := by
  unfold lastByte
  rw [UInt64.toNat_toUInt8, UInt64.toNat_shiftRight, Nat.mod_eq_of_lt hk, Nat.shiftRight_eq_div_pow]

/-- The shape of an encoded varint. -/
structure Canon (v : UInt64) (bs : List UInt8) : Prop where
  len : 1 ≤ bs.length ∧ bs.length ≤ 10
  cont : ∀ j, j + 1 < bs.length → ∃ x, bs[j]? = some x ∧ 128 ≤ x.toNat
  last : ∃ x, bs[bs.length - 1]? = some x ∧ x.toNat < 128 ∧ (bs.length = 10 → x.toNat < 2)
  val : leb bs = v.toNat
  size : bs.length = sizeVarint v

theorem len64_bounds (v : UInt64) (k : Nat) (h : v.toNat < 2 ^ k) : len64 v ≤ k := by
  unfold len64
  split
  · omega
  · rename_i hv
    have hv' : v.toNat ≠ 0 := by
      intro h0; apply hv; exact UInt64.toNat_inj.mp (by simpa using h0)
    have := (Nat.log2_lt hv').mpr h
    omega

theorem len64_lower (v : UInt64) (k : Nat) (h : 2 ^ k ≤ v.toNat) : k + 1 ≤ len64 v := by
  unfold len64
  have hv' : v.toNat ≠ 0 := by
    have := Nat.two_pow_pos k; omega
  split
  · rename_i h0; subst h0; simp at hv'
  · by_contra hc
    have : v.toNat.log2 < k := by omega
    have := (Nat.log2_lt hv').mp this
    omega

theorem appendVarint_append (b : List UInt8) (v : UInt64) :
    appendVarint b v = b ++ appendVarint [] v := by
  unfold appendVarint
  repeat' split
  all_goals rfl

theorem cont_mod (v : UInt64) (k : UInt64) (hk : k.toNat < 64) :
    (contByte v k).toNat % 128 = (v.toNat / 2 ^ k.toNat) % 128 := by
  rw [contByte_toNat v k hk]; omega

theorem cont_ge (v : UInt64) (k : UInt64) (hk : k.toNat < 64) : 128 ≤ (contByte v k).toNat := by
  rw [contByte_toNat v k hk]; omega

theorem last_val (v : UInt64) (k : UInt64) (hk : k.toNat < 64) (h : v.toNat < 2 ^ (k.toNat + 7)) :
    (lastByte v k).toNat = v.toNat / 2 ^ k.toNat ∧ (lastByte v k).toNat < 128 := by
  rw [lastByte_toNat v k hk]
  have : v.toNat / 2 ^ k.toNat < 128 := by
    rw [Nat.div_lt_iff_lt_mul (Nat.two_pow_pos _)]
    rw [Nat.pow_add] at h; omega
  rw [Nat.mod_eq_of_lt (by omega)]
  exact ⟨rfl, this⟩

theorem div_step (n k : Nat) : n / 2 ^ k % 128 + 128 * (n / 2 ^ (k + 7)) = n / 2 ^ k := by
  have : n / 2 ^ (k + 7) = n / 2 ^ k / 128 := by
    rw [Nat.pow_add, Nat.div_div_eq_div_mul]
  rw [this]; omega

/-- Continuation bytes for the given shifts, then a final byte. -/
theorem canon_shape (v : UInt64) (ks : List UInt64) (last : UInt8) (d : Nat)
    (hks : ∀ i (h : i < ks.length), (ks[i]).toNat = d + 7 * i)
    (h64 : d + 7 * ks.length ≤ 64)
    (hlast : last.toNat = v.toNat / 2 ^ (d + 7 * ks.length)) (hl : last.toNat < 128) :
    leb (ks.map (contByte v) ++ [last]) = v.toNat / 2 ^ d ∧
    ∀ j, j + 1 < (ks.map (contByte v) ++ [last]).length →
      ∃ x, (ks.map (contByte v) ++ [last])[j]? = some x ∧ 128 ≤ x.toNat := by
  constructor
  · induction ks generalizing d with
    | nil => simp [leb]; simp at hlast; omega
    | cons k t ih =>
      have hk := hks 0 (by simp)
      simp at hk
      simp only [List.length_cons] at h64 hlast
      have := ih (d + 7) (by
        intro i hi
        have := hks (i+1) (by simpa using hi)
        simp at this; omega) (by omega) (by rw [hlast]; congr 2; omega)
      simp only [List.map_cons, List.cons_append, leb, this]
      rw [cont_mod v k (by omega), hk, div_step]
  · intro j hj
    simp at hj
    refine ⟨contByte v (ks[j]'(by omega)), by simp [List.getElem?_append_left, hj], ?_⟩
    apply cont_ge
    have := hks j (by omega)
    omega

theorem canon_mk (v : UInt64) (ks : List UInt64) (last : UInt8) (lo hi : Nat)
    (hks : ∀ i (h : i < ks.length), (ks[i]).toNat = 7 * i)
    (h9 : ks.length ≤ 9)
    (hlast : last.toNat = v.toNat / 2 ^ (7 * ks.length)) (hl : last.toNat < 128)
    (h10 : ks.length = 9 → last.toNat < 2)
    (hlo : lo ≤ len64 v) (hhi : len64 v ≤ hi) (e1 : (9 * lo + 64) / 64 = ks.length + 1)
    (e2 : (9 * hi + 64) / 64 = ks.length + 1) :
    Canon v (ks.map (contByte v) ++ [last]) := by
  have h := canon_shape v ks last 0 (by simpa using hks) (by omega) (by simpa using hlast) hl
  refine ⟨by simp; omega, h.2, ⟨last, by simp, hl, ?_⟩, by simpa using h.1, ?_⟩
  · intro h; apply h10; simp at h; omega
  · simp only [sizeVarint, List.length_append, List.length_map, List.length_cons, List.length_nil]
    omega

theorem canon_appendVarint (v : UInt64) : Canon v (appendVarint [] v) := by
  have hv : v.toNat < 2 ^ 64 := v.toNat_lt
  have hb : ∀ k : UInt64, (v < k) ↔ v.toNat < k.toNat := fun k => UInt64.lt_iff_toNat_lt
  have b1 : ((1 : UInt64) <<< 7).toNat = 2 ^ 7 := rfl
  have b2 : ((1 : UInt64) <<< 14).toNat = 2 ^ 14 := rfl
  have b3 : ((1 : UInt64) <<< 21).toNat = 2 ^ 21 := rfl
  have b4 : ((1 : UInt64) <<< 28).toNat = 2 ^ 28 := rfl
  have b5 : ((1 : UInt64) <<< 35).toNat = 2 ^ 35 := rfl
  have b6 : ((1 : UInt64) <<< 42).toNat = 2 ^ 42 := rfl
  have b7 : ((1 : UInt64) <<< 49).toNat = 2 ^ 49 := rfl
  have b8 : ((1 : UInt64) <<< 56).toNat = 2 ^ 56 := rfl
  have b9 : ((1 : UInt64) <<< 63).toNat = 2 ^ 63 := rfl
  unfold appendVarint
  simp only [List.nil_append, hb, b1, b2, b3, b4, b5, b6, b7, b8, b9]
  split
  · rename_i h
    have e : v.toUInt8.toNat = v.toNat := by rw [UInt64.toNat_toUInt8]; omega
    exact canon_mk v [] _ 0 7 (by simp) (by simp) (by simp [e]) (by omega) (by simp) (by omega)
      (len64_bounds v 7 h) rfl rfl
  split
  · rename_i h' h
    have l := last_val v 7 (by decide) h
    exact canon_mk v [0] _ 8 14 (by intro i hi; simp only [List.length_cons, List.length_nil] at hi; interval_cases i <;> rfl)
      (by simp) l.1 l.2 (by simp; try omega) (len64_lower v 7 (Nat.not_lt.mp h'))
      (len64_bounds v 14 h) rfl rfl
  split
  · rename_i h' h
    have l := last_val v 14 (by decide) h
    exact canon_mk v [0, 7] _ 15 21 (by intro i hi; simp only [List.length_cons, List.length_nil] at hi; interval_cases i <;> rfl)
      (by simp) l.1 l.2 (by simp; try omega) (len64_lower v 14 (Nat.not_lt.mp h'))
      (len64_bounds v 21 h) rfl rfl
  split
  · rename_i h' h
    have l := last_val v 21 (by decide) h
    exact canon_mk v [0, 7, 14] _ 22 28 (by intro i hi; simp only [List.length_cons, List.length_nil] at hi; interval_cases i <;> rfl)
      (by simp) l.1 l.2 (by simp; try omega) (len64_lower v 21 (Nat.not_lt.mp h'))
      (len64_bounds v 28 h) rfl rfl
  split
  · rename_i h' h
    have l := last_val v 28 (by decide) h
    exact canon_mk v [0, 7, 14, 21] _ 29 35 (by intro i hi; simp only [List.length_cons, List.length_nil] at hi; interval_cases i <;> rfl)
      (by simp) l.1 l.2 (by simp; try omega) (len64_lower v 28 (Nat.not_lt.mp h'))
      (len64_bounds v 35 h) rfl rfl
  split
  · rename_i h' h
    have l := last_val v 35 (by decide) h
    exact canon_mk v [0, 7, 14, 21, 28] _ 36 42 (by intro i hi; simp only [List.length_cons, List.length_nil] at hi; interval_cases i <;> rfl)
      (by simp) l.1 l.2 (by simp; try omega) (len64_lower v 35 (Nat.not_lt.mp h'))
      (len64_bounds v 42 h) rfl rfl
  split
  · rename_i h' h
    have l := last_val v 42 (by decide) h
    exact canon_mk v [0, 7, 14, 21, 28, 35] _ 43 49 (by intro i hi; simp only [List.length_cons, List.length_nil] at hi; interval_cases i <;> rfl)
      (by simp) l.1 l.2 (by simp; try omega) (len64_lower v 42 (Nat.not_lt.mp h'))
      (len64_bounds v 49 h) rfl rfl
  split
  · rename_i h' h
    have l := last_val v 49 (by decide) h
    exact canon_mk v [0, 7, 14, 21, 28, 35, 42] _ 50 56 (by intro i hi; simp only [List.length_cons, List.length_nil] at hi; interval_cases i <;> rfl)
      (by simp) l.1 l.2 (by simp; try omega) (len64_lower v 49 (Nat.not_lt.mp h'))
      (len64_bounds v 56 h) rfl rfl
  split
  · rename_i h' h
    have l := last_val v 56 (by decide) h
    exact canon_mk v [0, 7, 14, 21, 28, 35, 42, 49] _ 57 63 (by intro i hi; simp only [List.length_cons, List.length_nil] at hi; interval_cases i <;> rfl)
      (by simp) l.1 l.2 (by simp; try omega) (len64_lower v 56 (Nat.not_lt.mp h'))
      (len64_bounds v 63 h) rfl rfl
  · rename_i h
    have e : v.toNat / 2 ^ 63 = 1 := by omega
    exact canon_mk v [0, 7, 14, 21, 28, 35, 42, 49, 56] 1 64 64
      (by intro i hi; simp only [List.length_cons, List.length_nil] at hi; interval_cases i <;> rfl)
      (by simp) e.symm (by decide) (by decide) (len64_lower v 63 (Nat.not_lt.mp h))
      (len64_bounds v 64 hv) rfl rfl

/-- Any well-shaped varint is consumed exactly. -/
theorem consume_of_canon {v : UInt64} {bs rest : List UInt8} (c : Canon v bs) :
    consumeVarint (bs ++ rest) = (v, (bs.length : Int)) := by
  obtain ⟨hl1, hl2⟩ := c.len
  obtain ⟨x, hx, hx128, hx2⟩ := c.last
  have hget : ∀ j, j < bs.length → (bs ++ rest)[j]? = bs[j]? := by
    intro j hj; rw [List.getElem?_append_left hj]
  have hxr : (bs ++ rest)[bs.length - 1]? = some x := by rw [hget _ (by omega), hx]
  rcases consumeVarint_result (bs ++ rest) with ⟨_, _, hall⟩ | ⟨_, h9, y, hy, hy2⟩ | ⟨k, hk, hcont, ⟨y, hy, hy128, hy2⟩, hn, hval⟩
  · have := hall x (List.mem_of_getElem? hxr); omega
  · by_cases hlen : bs.length = 10
    · have e : bs.length - 1 = 9 := by omega
      rw [e] at hxr; rw [hxr] at hy; cases hy
      have := hx2 hlen; omega
    · obtain ⟨z, hz, hz2⟩ := h9 (bs.length - 1) (by omega)
      rw [hxr] at hz; cases hz; omega
  · have hkeq : k = bs.length - 1 := by
      rcases Nat.lt_trichotomy k (bs.length - 1) with h | h | h
      · obtain ⟨z, hz, hz2⟩ := c.cont k (by omega)
        rw [hget k (by omega), hz] at hy; cases hy; omega
      · exact h
      · obtain ⟨z, hz, hz2⟩ := hcont (bs.length - 1) h
        rw [hxr] at hz; cases hz; omega
    have htake : (bs ++ rest).take (k + 1) = bs := by
      rw [hkeq, Nat.sub_add_cancel hl1]; simp
    rw [htake, c.val] at hval
    refine Prod.ext (UInt64.toNat_inj.mp hval) ?_
    simp only [hn]; omega

theorem consume_append (v : UInt64) (rest : List UInt8) :
    consumeVarint (appendVarint [] v ++ rest) = (v, ((appendVarint [] v).length : Int)) :=
  consume_of_canon (canon_appendVarint v)

end Verif.Grpc
