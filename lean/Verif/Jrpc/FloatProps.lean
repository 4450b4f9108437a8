import Verif.Jrpc.FloatModel
import Verif.Jrpc.Lemmas4
/-!
# C204: JSON-RPC floating point numbers
-/
namespace Verif.Jrpc.Fl
namespace Spec

/-- A JSON number without exponent: a sign, digits, and digits after a point if there is one. -/
structure Number where
  neg : Bool
  whole : List UInt8
  fract : Option (List UInt8)

/-- Its text. -/
def text (n : Number) : List UInt8 :=
  (if n.neg then [45] else []) ++ n.whole ++ (match n.fract with | some fs => 46 :: fs | none => [])

/-- The text is one JSON allows. -/
def Ok (n : Number) : Prop := Digits n.whole ∧ ∀ fs, n.fract = some fs → Digits fs

/-- The number it denotes. -/
def denotes (n : Number) : Rat :=
  (if n.neg then -1 else 1) * ((digitsVal n.whole : Rat) + match n.fract with | some fs => (digitsVal fs : Rat) / ((10 ^ fs.length : Nat) : Rat) | none => 0)

/-- Arithmetic without rounding. -/
def exact : Ops Rat := ⟨fun i => (i : Rat), fun n => (n : Rat), fun a b => a + b, fun a b => a / b⟩

/-- What IEEE 754 says of dividing nothing by nothing. -/
structure Nan {F : Type} (o : Ops F) (nan : F) : Prop where
  zero : o.div (o.ofNat 0) (o.ofNat 0) = nan
  add : ∀ x, o.add x nan = nan

/-- What a user relies on: a number is read as the value it denotes (up to rounding), wherever JSON lets it end. -/
def Reads : Prop := ∀ (n : Number) (rest : List UInt8), Ok n → NumberEnd rest → decFloat exact (text n ++ rest) = .ok (denotes n, rest)

/-- Where a number may end here. -/
def EndsHere (rest : List UInt8) : Prop := rest = [] ∨ ∃ c t, rest = c :: t ∧ (c = 44 ∨ c = 125 ∨ c = 93)

end Spec

theorem loop_digit (a : Acc) (c : UInt8) (t : List UInt8) (h : 48 ≤ c.toNat ∧ c.toNat ≤ 57) :
    loop a (c :: t) = if a.decimals = 0 then loop { a with whole := a.whole * 10 + BitVec.ofNat 64 (c.toNat - 48) } t
      else loop { a with fract := a.fract * 10 + BitVec.ofNat 64 (c.toNat - 48), decimals := a.decimals * 10 } t := by
  have h1 : c ≠ 45 := by rintro rfl; revert h; decide
  have h2 : c ≠ 46 := by rintro rfl; revert h; decide
  have h3 : ¬ (c = 44 ∨ c = 125 ∨ c = 93) := by rintro (rfl | rfl | rfl) <;> revert h <;> decide
  have h4 : ¬ (c.toNat < 48 ∨ 57 < c.toNat) := by omega
  conv => lhs; unfold loop
  rw [if_neg h1, if_neg h2, if_neg h3, if_neg h4]

/-- The value of digits that follow others. -/
theorem digits_from : ∀ (ds : List UInt8) (n : Nat), ds.foldl (fun n d => n * 10 + (d.toNat - 48)) n = n * 10 ^ ds.length + digitsVal ds
  | [], n => by simp [digitsVal]
  | d :: ds, n => by
    have h0 := digits_from ds (0 * 10 + (d.toNat - 48))
    have h1 := digits_from ds (n * 10 + (d.toNat - 48))
    unfold digitsVal at h0 h1 ⊢
    simp only [List.foldl_cons, List.length_cons]
    rw [h1, h0, Nat.pow_succ]
    have : (n * 10 + (d.toNat - 48)) * 10 ^ ds.length = n * (10 ^ ds.length * 10) + (d.toNat - 48) * 10 ^ ds.length := by
      rw [Nat.add_mul, Nat.mul_assoc, Nat.mul_comm 10]
    simp only [Nat.zero_mul, Nat.zero_add]
    omega

theorem loop_whole : ∀ (ds : List UInt8) (n : Nat) (neg : Bool) (t : List UInt8), (∀ d ∈ ds, 48 ≤ d.toNat ∧ d.toNat ≤ 57) →
    loop ⟨BitVec.ofNat 64 n, 0, neg, 0⟩ (ds ++ t) = loop ⟨BitVec.ofNat 64 (ds.foldl (fun n d => n * 10 + (d.toNat - 48)) n), 0, neg, 0⟩ t
  | [], _, _, _, _ => rfl
  | d :: ds, n, neg, t, h => by
    rw [List.cons_append, loop_digit _ _ _ (h d (by simp))]
    dsimp only
    rw [if_pos rfl]
    have e : BitVec.ofNat 64 n * 10 + BitVec.ofNat 64 (d.toNat - 48) = BitVec.ofNat 64 (n * 10 + (d.toNat - 48)) := by
      rw [BitVec.ofNat_add, BitVec.ofNat_mul]; rfl
    rw [e, loop_whole ds _ neg t (fun x hx => h x (by simp [hx]))]
    rfl

theorem loop_fract : ∀ (ds : List UInt8) (w : BitVec 64) (n k : Nat) (neg : Bool) (t : List UInt8), (∀ d ∈ ds, 48 ≤ d.toNat ∧ d.toNat ≤ 57) →
    k + ds.length ≤ 19 →
    loop ⟨w, BitVec.ofNat 64 n, neg, BitVec.ofNat 64 (10 ^ k)⟩ (ds ++ t) =
      loop ⟨w, BitVec.ofNat 64 (ds.foldl (fun n d => n * 10 + (d.toNat - 48)) n), neg, BitVec.ofNat 64 (10 ^ (k + ds.length))⟩ t
  | [], _, _, _, _, _, _, _ => rfl
  | d :: ds, w, n, k, neg, t, h, hk => by
    simp only [List.length_cons] at hk ⊢
    rw [List.cons_append, loop_digit _ _ _ (h d (by simp))]
    have hpos : BitVec.ofNat 64 (10 ^ k) ≠ 0 := by
      have hlt : 10 ^ k < 2 ^ 64 := Nat.lt_of_le_of_lt (Nat.pow_le_pow_right (by decide) (show k ≤ 19 by omega)) (by decide)
      intro h0
      have := congrArg BitVec.toNat h0
      rw [BitVec.toNat_ofNat, Nat.mod_eq_of_lt hlt] at this
      have h2 : 0 < 10 ^ k := Nat.pow_pos (by decide)
      rw [this] at h2
      exact absurd h2 (by decide)
    dsimp only
    rw [if_neg hpos]
    have e : BitVec.ofNat 64 n * 10 + BitVec.ofNat 64 (d.toNat - 48) = BitVec.ofNat 64 (n * 10 + (d.toNat - 48)) := by
      rw [BitVec.ofNat_add, BitVec.ofNat_mul]; rfl
    have e2 : BitVec.ofNat 64 (10 ^ k) * 10 = BitVec.ofNat 64 (10 ^ (k + 1)) := by
      rw [Nat.pow_succ, BitVec.ofNat_mul]; rfl
    rw [e, e2, loop_fract ds w _ (k + 1) neg t (fun x hx => h x (by simp [hx])) (by omega)]
    rw [show k + 1 + ds.length = k + (ds.length + 1) by omega]
    rfl

theorem loop_end (a : Acc) (rest : List UInt8) (h : Spec.EndsHere rest) : loop a rest = .ok (a, rest) := by
  rcases h with rfl | ⟨c, t, rfl, h⟩
  · rfl
  · have h1 : c ≠ 45 := by rintro rfl; revert h; decide
    have h2 : c ≠ 46 := by rintro rfl; revert h; decide
    unfold loop
    rw [if_neg h1, if_neg h2, if_pos h]

theorem skip_digits (ds t : List UInt8) (h : Digits ds) : skipWs (ds ++ t) = .ok (ds ++ t) := by
  obtain ⟨hn, hd⟩ := h
  cases ds with
  | nil => exact absurd rfl hn
  | cons c ds => exact skipWs_app (digit_start (hd c (by simp))).1

/-- The digits of a number are less than the power of ten. -/
theorem digitsVal_lt (ds : List UInt8) (h : ∀ d ∈ ds, 48 ≤ d.toNat ∧ d.toNat ≤ 57) : digitsVal ds < 10 ^ ds.length := by
  induction ds with
  | nil => simp [digitsVal]
  | cons d ds ih =>
    have h0 := digits_from ds (d.toNat - 48)
    have hd := h d (by simp)
    have ih := ih (fun x hx => h x (by simp [hx]))
    have : digitsVal (d :: ds) = (d.toNat - 48) * 10 ^ ds.length + digitsVal ds := by
      rw [← h0]; simp [digitsVal]
    rw [this, List.length_cons, Nat.pow_succ]
    have h9 : (d.toNat - 48) * 10 ^ ds.length ≤ 9 * 10 ^ ds.length := Nat.mul_le_mul_right _ (by omega)
    omega

/-- **C204** (partial): a number with a point and without sign is read digit by digit, with whatever arithmetic: the digits before the point
plus the digits behind it divided by the power of ten; if it has at most eighteen digits on either side and ends with `,`, `}`, `]` or
the text. -/
theorem float_read_partial {F : Type} (o : Ops F) (ds fs rest : List UInt8) (hd : Digits ds) (hf : Digits fs) (h1 : ds.length ≤ 18) (h2 : fs.length ≤ 18)
    (hr : Spec.EndsHere rest) : decFloat o (ds ++ 46 :: fs ++ rest) =
      .ok (o.add (o.ofInt (digitsVal ds)) (o.div (o.ofNat (digitsVal fs)) (o.ofNat (10 ^ fs.length))), rest) := by
  unfold decFloat
  rw [List.append_assoc, skip_digits _ _ hd, ok_bind]
  have hz : (⟨0, 0, false, 0⟩ : Acc) = ⟨BitVec.ofNat 64 0, 0, false, 0⟩ := rfl
  rw [hz, loop_whole ds 0 false _ hd.2]
  have hp : ∀ (w : BitVec 64) (t : List UInt8), loop ⟨w, 0, false, 0⟩ (46 :: t) = loop ⟨w, BitVec.ofNat 64 0, false, BitVec.ofNat 64 (10 ^ 0)⟩ t := by
    intro w t
    conv => lhs; unfold loop
    rw [if_neg (by decide), if_pos rfl]
    rfl
  rw [List.cons_append, hp, loop_fract fs _ 0 0 false rest hf.2 (by omega), loop_end _ _ hr, ok_bind]
  have l1 : digitsVal ds < 10 ^ 18 := Nat.lt_of_lt_of_le (digitsVal_lt ds hd.2) (Nat.pow_le_pow_right (by decide) h1)
  have l2 : digitsVal fs < 10 ^ 18 := Nat.lt_of_lt_of_le (digitsVal_lt fs hf.2) (Nat.pow_le_pow_right (by decide) h2)
  have l3 : 10 ^ fs.length ≤ 10 ^ 18 := Nat.pow_le_pow_right (by decide) h2
  have e1 : (BitVec.ofNat 64 (ds.foldl (fun n d => n * 10 + (d.toNat - 48)) 0)).toInt = (digitsVal ds : Int) := by
    rw [show (ds.foldl (fun n d => n * 10 + (d.toNat - 48)) 0) = digitsVal ds from rfl]
    have hb : (BitVec.ofNat 64 (digitsVal ds)).toNat = digitsVal ds := by
      rw [BitVec.toNat_ofNat]
      exact Nat.mod_eq_of_lt (Nat.lt_trans l1 (by decide))
    rw [BitVec.toInt_eq_toNat_of_lt (by rw [hb]; omega), hb]
  have e2 : (BitVec.ofNat 64 (fs.foldl (fun n d => n * 10 + (d.toNat - 48)) 0)).toNat = digitsVal fs := by
    rw [BitVec.toNat_ofNat, show (fs.foldl (fun n d => n * 10 + (d.toNat - 48)) 0) = digitsVal fs from rfl]
    exact Nat.mod_eq_of_lt (Nat.lt_trans l2 (by decide))
  have e3 : (BitVec.ofNat 64 (10 ^ (0 + fs.length))).toNat = 10 ^ fs.length := by
    rw [BitVec.toNat_ofNat, Nat.zero_add]
    exact Nat.mod_eq_of_lt (Nat.lt_of_le_of_lt l3 (by decide))
  unfold value
  dsimp only
  rw [if_neg (by decide), e1, e2, e3]

/-- **C204** (partial): so, but for rounding, it is the number. -/
theorem float_exact_partial (ds fs rest : List UInt8) (hd : Digits ds) (hf : Digits fs) (h1 : ds.length ≤ 18) (h2 : fs.length ≤ 18)
    (hr : Spec.EndsHere rest) :
    decFloat Spec.exact (Spec.text ⟨false, ds, some fs⟩ ++ rest) = .ok (Spec.denotes ⟨false, ds, some fs⟩, rest) := by
  have : Spec.text ⟨false, ds, some fs⟩ ++ rest = ds ++ 46 :: fs ++ rest := by simp [Spec.text]
  rw [this, float_read_partial Spec.exact ds fs rest hd hf h1 h2 hr]
  simp [Spec.exact, Spec.denotes]
  rfl

/-- `3.14,` -/
example : decFloat Spec.exact ([51, 46, 49, 52, 44]) = .ok (3 + 14 / 100, [44]) := by
  have h := float_exact_partial [51] [49, 52] [44] ⟨by simp, by decide⟩ ⟨by simp, by decide⟩ (by decide) (by decide) (.inr ⟨44, [], rfl, .inl rfl⟩)
  have e : Spec.denotes ⟨false, [51], some [49, 52]⟩ = 3 + 14 / 100 := by decide +kernel
  rw [e] at h
  exact h

/-- **C204** (refuted): every number without a point is read as not a number. -/
theorem whole_number_fails {F : Type} (o : Ops F) (nan : F) (hn : Spec.Nan o nan) (neg : Bool) (ds rest : List UInt8) (hd : Digits ds) (hr : Spec.EndsHere rest) :
    decFloat o (Spec.text ⟨neg, ds, none⟩ ++ rest) = .ok (nan, rest) := by
  have hv : ∀ w neg', value o ⟨w, 0, neg', 0⟩ = nan := by
    intro w neg'
    unfold value
    show o.add _ (o.div (o.ofNat 0) (o.ofNat 0)) = nan
    rw [hn.zero, hn.add]
  unfold decFloat
  cases neg with
  | false =>
    have : Spec.text ⟨false, ds, none⟩ ++ rest = ds ++ rest := by simp [Spec.text]
    rw [this, skip_digits _ _ hd, ok_bind]
    have hz : (⟨0, 0, false, 0⟩ : Acc) = ⟨BitVec.ofNat 64 0, 0, false, 0⟩ := rfl
    rw [hz, loop_whole ds 0 false _ hd.2, loop_end _ _ hr, ok_bind]
    show Except.ok (value o _, rest) = _
    rw [hv]
  | true =>
    have : Spec.text ⟨true, ds, none⟩ ++ rest = 45 :: (ds ++ rest) := by simp [Spec.text]
    rw [this, skipWs_char (by decide), ok_bind]
    have hz : loop (⟨0, 0, false, 0⟩ : Acc) (45 :: (ds ++ rest)) = loop ⟨BitVec.ofNat 64 0, 0, true, 0⟩ (ds ++ rest) := by
      conv => lhs; unfold loop
      rw [if_pos rfl]
      rfl
    rw [hz, loop_whole ds 0 true _ hd.2, loop_end _ _ hr, ok_bind]
    show Except.ok (value o _, rest) = _
    rw [hv]

/-- There are such operations: numbers and one that is not. -/
example : Spec.Nan (F := Option Nat) ⟨fun i => some i.toNat, some, fun a b => a.bind fun x => b.map (x + ·),
    fun a b => if b = some 0 then none else a.bind fun x => b.map (x / ·)⟩ none := ⟨rfl, fun x => by cases x <;> rfl⟩

/-- **C204** (refuted): -1.5 is read as -0.5, -0.5 as 0.5. -/
theorem negative_fails : decFloat Spec.exact (Spec.text ⟨true, [49], some [53]⟩) = .ok (-1/2, []) ∧
    decFloat Spec.exact (Spec.text ⟨true, [48], some [53]⟩) = .ok (1/2, []) := by
  constructor <;> decide +kernel

/-- **C204** (refuted): a number before white space is refused. -/
theorem space_fails : decFloat Spec.exact (Spec.text ⟨false, [49], some [53]⟩ ++ [32, 125]) = .error .notInteger := by decide +kernel

/-- **C204** (refuted). -/
theorem float_fails : ¬ Spec.Reads := by
  intro h
  have := h ⟨true, [49], some [53]⟩ [] ⟨⟨by simp, by decide⟩, by rintro fs ⟨⟩; exact ⟨by simp, by decide⟩⟩ (.inl rfl)
  rw [List.append_nil, negative_fails.1] at this
  injection this with h1
  have h2 : Spec.denotes ⟨true, [49], some [53]⟩ = -3/2 := by decide +kernel
  rw [h2] at h1
  injection h1 with h3
  exact absurd h3 (by decide +kernel)

end Verif.Jrpc.Fl
