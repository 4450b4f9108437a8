import Verif.Ffi.MemModel
/-!
# C38: the layout of values in memory
-/
namespace Verif.Ffi

/-! ### Specification -/

/-- The bytes of an array. -/
def arrBytes {α : Type} (f : α → List UInt8) : (n : Nat) → Arr α n → List UInt8
  | 0, _ => []
  | n + 1, v => f v.1 ++ arrBytes f n v.2

mutual
/-- Specification: the bytes of a value; numbers are little-endian, the parts of structs and arrays
follow each other without gaps. -/
def Ty.bytes : (t : Ty) → t.Val → List UInt8
  | .num n, v => le n (BitVec.toNat v)
  | .c64, v => le 4 (BitVec.toNat v.1) ++ le 4 (BitVec.toNat v.2)
  | .c128, v => le 8 (BitVec.toNat v.1) ++ le 8 (BitVec.toNat v.2)
  | .bool, v => [cond v 1 0]
  | .ref, v => le 8 (BitVec.toNat v)
  | .array n t, v => arrBytes (Ty.bytes t) n v
  | .struct fs, v => Tys.bytes fs v

/-- The bytes of fields. -/
def Tys.bytes : (ts : Tys) → ts.Val → List UInt8
  | .nil, _ => []
  | .cons t ts, v => Ty.bytes t v.1 ++ Tys.bytes ts v.2
end

mutual
/-- Types without booleans and complex64 numbers. -/
def Ty.Good : Ty → Prop
  | .c64 => False
  | .bool => False
  | .array _ t => Ty.Good t
  | .struct fs => Tys.Good fs
  | _ => True

/-- Fields without booleans and complex64 numbers. -/
def Tys.Good : Tys → Prop
  | .nil => True
  | .cons t ts => Ty.Good t ∧ Tys.Good ts
end

/-- The number the little-endian bytes stand for. -/
def fromLe : List UInt8 → Nat
  | [] => 0
  | b :: bs => b.toNat + 256 * fromLe bs

theorem le_length (k n : Nat) : (le k n).length = k := by
  induction k generalizing n with
  | zero => rfl
  | succ k ih => simp [le, ih]

/-- The bytes of a number stand for it. -/
theorem fromLe_le (k n : Nat) (h : n < 2 ^ (8 * k)) : fromLe (le k n) = n := by
  induction k generalizing n with
  | zero => simp at h; simp [le, fromLe, h]
  | succ k ih =>
    have hp : 2 ^ (8 * (k + 1)) = 256 * 2 ^ (8 * k) := by
      rw [show 8 * (k + 1) = 8 + 8 * k by omega, Nat.pow_add]
    rw [le, fromLe, ih (n / 256) (by rw [hp] at h; exact Nat.div_lt_of_lt_mul h)]
    have : (UInt8.ofNat (n % 256)).toNat = n % 256 := by
      rw [UInt8.toNat_ofNat']; omega
    rw [this]; omega

theorem arrBytes_length {α : Type} (f : α → List UInt8) (k : Nat) (h : ∀ a, (f a).length = k) :
    (n : Nat) → (x : Arr α n) → (arrBytes f n x).length = n * k
  | 0, _ => by simp [arrBytes]
  | n + 1, x => by
    rw [arrBytes, List.length_append, h, arrBytes_length f k h n, Nat.succ_mul]; omega

mutual
theorem bytes_length : (t : Ty) → (v : t.Val) → (t.bytes v).length = t.sizeOf
  | .num n, v => le_length _ _
  | .c64, v => by rw [Ty.bytes, List.length_append, le_length, le_length]; rfl
  | .c128, v => by rw [Ty.bytes, List.length_append, le_length, le_length]; rfl
  | .bool, v => rfl
  | .ref, v => le_length _ _
  | .array n t, v => arrBytes_length _ _ (bytes_length t) n v
  | .struct fs, v => bytes_lengths fs v

theorem bytes_lengths : (ts : Tys) → (v : ts.Val) → (ts.bytes v).length = ts.sizeOf
  | .nil, _ => rfl
  | .cons t ts, v => by
    rw [Tys.bytes, Tys.sizeOf, List.length_append, bytes_length t, bytes_lengths ts]
end

/-- The buffer with some of its bytes replaced. -/
def over (buf : List UInt8) (i : Nat) (bytes : List UInt8) : List UInt8 :=
  buf.take i ++ bytes ++ buf.drop (i + bytes.length)

theorem over_length (buf bytes : List UInt8) (i : Nat) (h : i + bytes.length ≤ buf.length) :
    (over buf i bytes).length = buf.length := by
  simp only [over, List.length_append, List.length_take, List.length_drop]; omega

theorem over_nil (buf : List UInt8) (i : Nat) : over buf i [] = buf := by
  simp [over]

/-- Replacing bytes and then the bytes behind them. -/
theorem over_over (buf a b : List UInt8) (i : Nat) (h : i + a.length + b.length ≤ buf.length) :
    over (over buf i a) (i + a.length) b = over buf i (a ++ b) := by
  have h₁ : (buf.take i ++ a).length = i + a.length := by
    rw [List.length_append, List.length_take]; omega
  rw [over, over, List.take_append_of_le_length (by omega), List.take_of_length_le (by omega), over]
  rw [List.drop_append, h₁, List.drop_of_length_le (by omega), List.drop_drop, List.nil_append,
    List.length_append]
  simp only [List.append_assoc]
  congr 4
  omega

theorem put_over (buf bytes : List UInt8) (i : Nat) (h : i + bytes.length ≤ buf.length) :
    put buf i bytes = some (over buf i bytes) := by rw [put, if_pos h]; rfl

theorem putN_over (buf bytes : List UInt8) (i n : Nat) (h : i + bytes.length ≤ buf.length) :
    putN buf i bytes n = some (over buf i bytes, n) := by rw [putN, put_over buf bytes i h]

/-- What a read does that writes `bytes`. -/
def Puts (bytes : List UInt8) (r : List UInt8 → Nat → Option (List UInt8 × Nat)) : Prop :=
  ∀ (buf : List UInt8) (i : Nat), i + bytes.length ≤ buf.length →
    r buf i = some (over buf i bytes, bytes.length)

theorem puts_nil {r : List UInt8 → Nat → Option (List UInt8 × Nat)}
    (h : ∀ buf i, r buf i = some (buf, 0)) : Puts [] r := by
  intro buf i _; rw [over_nil]; exact h buf i

theorem puts_andThen {a b : List UInt8} {f g : List UInt8 → Nat → Option (List UInt8 × Nat)}
    (ha : Puts a f) (hb : Puts b g) : Puts (a ++ b) (fun buf i => andThen (f buf i) i g) := by
  intro buf i h
  rw [List.length_append] at h
  show andThen (f buf i) i g = _
  rw [ha buf i (by omega), andThen]
  rw [hb (over buf i a) (i + a.length) (by rw [over_length _ _ _ (by omega)]; omega)]
  rw [over_over buf a b i (by omega), List.length_append]

theorem puts_arr {α : Type} (rd : List UInt8 → Nat → α → Option (List UInt8 × Nat))
    (f : α → List UInt8) (h : ∀ a, Puts (f a) (fun buf i => rd buf i a)) :
    (n : Nat) → (x : Arr α n) → Puts (arrBytes f n x) (fun buf i => readArr rd n buf i x)
  | 0, _ => puts_nil fun _ _ => rfl
  | n + 1, x => puts_andThen (h x.1) (puts_arr rd f h n x.2)

theorem puts_le (k n : Nat) : Puts (le k n) (fun buf i => putN buf i (le k n) k) := by
  intro buf i h
  show putN buf i (le k n) k = _
  rw [putN_over _ _ _ _ h, le_length]

mutual
theorem read_aux : (t : Ty) → t.Good → (v : t.Val) → Puts (t.bytes v) (fun buf i => t.read buf i v)
  | .num n, _, v => puts_le _ _
  | .c64, h, _ => h.elim
  | .c128, _, v => by
    intro buf i h
    simp only [Ty.bytes, List.length_append, le_length] at h
    have e : Ty.read .c128 buf i v = putN (over buf i (le 8 (BitVec.toNat v.1))) (i + 8)
        (le 8 (BitVec.toNat v.2)) 16 := by
      have := put_over buf (le 8 (BitVec.toNat v.1)) i (by rw [le_length]; omega)
      simp only [Ty.read, putC128, this]
    refine e.trans ?_
    rw [putN_over _ _ _ _ (by rw [over_length _ _ _ (by rw [le_length]; omega), le_length]; omega)]
    have := over_over buf (le 8 (BitVec.toNat v.1)) (le 8 (BitVec.toNat v.2)) i
      (by rw [le_length, le_length]; omega)
    rw [le_length] at this
    rw [this]
    simp only [Ty.bytes, List.length_append, le_length]
  | .bool, h, _ => h.elim
  | .ref, _, v => puts_le _ _
  | .array n t, h, v => puts_arr _ _ (read_aux t h) n v
  | .struct fs, h, v => reads_aux fs h v

theorem reads_aux : (ts : Tys) → ts.Good → (v : ts.Val) →
    Puts (ts.bytes v) (fun buf i => ts.read buf i v)
  | .nil, _, _ => puts_nil fun _ _ => rfl
  | .cons t ts, h, v => puts_andThen (read_aux t h.1 v.1) (reads_aux ts h.2 v.2)
end

/-- C38, partial: the bytes of a value replace exactly as many bytes of the buffer as its type's size
says, nothing else is touched, and that size is what is reported. -/
theorem read_partial (t : Ty) (h : t.Good) (v : t.Val) (before old after : List UInt8)
    (hl : old.length = t.sizeOf) :
    t.read (before ++ old ++ after) before.length v =
      some (before ++ t.bytes v ++ after, t.sizeOf) := by
  have hb := bytes_length t v
  have := read_aux t h v (before ++ old ++ after) before.length
    (by simp only [List.length_append]; omega)
  rw [show t.read (before ++ old ++ after) before.length v = _ from this, hb]
  congr 2
  rw [over, List.append_assoc before old after, List.take_left, hb, ← hl]
  rw [show before.length + old.length = (before ++ old).length by simp, ← List.append_assoc before old,
    List.drop_left]

example (a b : UInt8) : Ty.read (.struct (.cons (.num 2) (.cons (.array 2 (.num 1)) .nil)))
    [a, 0, 0, 0, 0, b] 1 (0x0102#16, (3#8, 4#8, ()), ()) = some ([a, 2, 1, 3, 4, b], 4) :=
  read_partial (.struct (.cons (.num 2) (.cons (.array 2 (.num 1)) .nil)))
    ⟨trivial, trivial, trivial⟩ (0x0102#16, (3#8, 4#8, ()), ()) [a] [0, 0, 0, 0] [b] rfl

/-- C38: the bytes of a value determine its numbers. -/
theorem number_restored (k : Nat) (v : BitVec (8 * k)) :
    fromLe (Ty.bytes (.num k) v) = v.toNat := fromLe_le k _ v.isLt

/-- C38: too short a buffer panics instead of being overrun. -/
theorem read_short (k : Nat) (buf : List UInt8) (i : Nat) (v : BitVec (8 * k))
    (h : buf.length < i + k) : Ty.read (.num k) buf i v = none := by
  show putN buf i (le k v.toNat) k = none
  rw [putN, put, if_neg (by rw [le_length]; omega)]

/-- C38 fails: a complex64 is written as eight bytes, but reported as sixteen, so that what follows it
in a struct is written eight bytes too far, beyond the size of the struct. -/
theorem read_complex_fails :
    Ty.read .c64 (List.replicate 8 0) 0 (1#32, 2#32) = some ([1, 0, 0, 0, 2, 0, 0, 0], 16) ∧
    Ty.sizeOf .c64 = 8 ∧
    Ty.read (.struct (.cons .c64 (.cons (.num 1) .nil))) (List.replicate 9 0) 0
      ((1#32, 2#32), 3#8, ()) = none := by
  refine ⟨rfl, rfl, rfl⟩

/-- C38 fails: booleans have a size but cannot be read. -/
theorem read_bool_fails (buf : List UInt8) (i : Nat) (v : Bool) :
    Ty.sizeOf .bool = 1 ∧ Ty.read .bool buf i v = none := ⟨rfl, rfl⟩

/-! ### Reading slices -/

/-- Specification: the bytes of consecutive elements. -/
def bytesOf (t : Ty) (vs : List t.Val) : List UInt8 := vs.flatMap t.bytes

theorem bytesOf_length (t : Ty) (vs : List t.Val) : (bytesOf t vs).length = vs.length * t.sizeOf := by
  induction vs with
  | nil => simp [bytesOf]
  | cons v vs ih =>
    simp only [bytesOf, List.flatMap_cons, List.length_append, List.length_cons] at ih ⊢
    rw [ih, bytes_length, Nat.succ_mul]; omega

/-- C38, partial: reading one or two elements of a slice gives their bytes one after the other; the
reported number is the number of elements. -/
theorem readAt_partial (t : Ty) (h : t.Good) (hs : t.sizeOf ≠ 0) (before vs rest : List t.Val)
    (hv : vs.length = 1 ∨ vs.length = 2) (buf : List UInt8)
    (hl : buf.length = vs.length * t.sizeOf) :
    readAt t (before ++ vs ++ rest) buf (before.length * t.sizeOf) =
      some (bytesOf t vs, vs.length) := by
  have hd : buf.length / t.sizeOf = vs.length := by rw [hl]; exact Nat.mul_div_cancel _ (by omega)
  have ho : before.length * t.sizeOf / t.sizeOf = before.length := Nat.mul_div_cancel _ (by omega)
  rw [readAt, if_neg hs, if_neg (by
    rw [hl, Nat.mul_mod_left, Nat.mul_mod_left]; simp), hd, ho]
  match vs, hv with
  | [a], _ =>
    simp only [List.length_cons, List.length_nil, Nat.zero_add, Nat.one_mul] at hl ⊢
    have := read_partial t h a [] buf [] hl
    simp only [List.nil_append, List.append_nil, List.length_nil] at this
    rw [readLoop]
    rw [show (before ++ [a] ++ rest)[before.length]? = some a by simp]
    simp only [this, readLoop]
    simp [bytesOf]
  | [a, b], _ =>
    simp only [List.length_cons, List.length_nil, Nat.zero_add] at hl ⊢
    have ht : (buf.take t.sizeOf).length = t.sizeOf := by rw [List.length_take]; omega
    have hdr : (buf.drop t.sizeOf).length = t.sizeOf := by rw [List.length_drop]; omega
    have h₁ := read_partial t h a [] (buf.take t.sizeOf) (buf.drop t.sizeOf) ht
    simp only [List.nil_append, List.take_append_drop, List.length_nil] at h₁
    have h₂ := read_partial t h b (t.bytes a) (buf.drop t.sizeOf) [] hdr
    simp only [List.append_nil] at h₂
    rw [bytes_length] at h₂
    rw [readLoop]
    rw [show (before ++ [a, b] ++ rest)[before.length]? = some a by simp]
    simp only [h₁]
    rw [readLoop]
    rw [show (before ++ [a, b] ++ rest)[before.length + 1]? = some b by simp]
    simp only [h₂, readLoop]
    simp [bytesOf]

example : readAt (.num 2) [1#16, 2#16, 3#16] [0, 0, 0, 0] 2 = some ([2, 0, 3, 0], 2) :=
  readAt_partial (.num 2) trivial (by decide) [1#16] [2#16, 3#16] [] (Or.inr rfl) _ rfl

/-- What the loop does from the third element on: every element is written over the second. -/
theorem readLoop_over (t : Ty) (h : t.Good) (a : List UInt8) (ha : a.length = t.sizeOf)
    (vs : List t.Val) (before rest : List t.Val) (old tail : List UInt8)
    (ho : old.length = t.sizeOf) (v : t.Val) :
    readLoop t (before ++ vs ++ [v] ++ rest) (vs.length + 1) before.length (a ++ old ++ tail) t.sizeOf =
      some (a ++ t.bytes v ++ tail) := by
  induction vs generalizing before old with
  | nil =>
    have := read_partial t h v a old tail ho
    rw [ha] at this
    simp only [List.append_nil, List.length_nil]
    rw [readLoop, show (before ++ [v] ++ rest)[before.length]? = some v by simp]
    simp only [this, readLoop]
  | cons u us ih =>
    have hu := read_partial t h u a old tail ho
    rw [ha] at hu
    rw [readLoop, show (before ++ (u :: us) ++ [v] ++ rest)[before.length]? = some u by simp]
    simp only [hu]
    have := ih (before ++ [u]) (t.bytes u) (bytes_length t u)
    simp only [List.append_assoc, List.length_append, List.length_cons, List.length_nil,
      List.cons_append, List.nil_append] at this ⊢
    exact this

/-- C38 fails for three and more elements: only the first and the last of them arrive, the last in the
place of the second, and the rest of the buffer keeps what it held. -/
theorem readAt_many (t : Ty) (h : t.Good) (hs : t.sizeOf ≠ 0) (a v : t.Val) (us : List t.Val)
    (buf : List UInt8) (hl : buf.length = (us.length + 2) * t.sizeOf) :
    readAt t (a :: us ++ [v]) buf 0 =
      some (t.bytes a ++ t.bytes v ++ buf.drop (2 * t.sizeOf), us.length + 2) := by
  have hd : buf.length / t.sizeOf = us.length + 1 + 1 := by
    rw [hl]; exact Nat.mul_div_cancel _ (by omega)
  have hge : 2 * t.sizeOf ≤ buf.length := by
    rw [hl]; exact Nat.mul_le_mul_right _ (by omega)
  rw [readAt, if_neg hs, if_neg (by rw [hl, Nat.mul_mod_left]; simp), hd, Nat.zero_div]
  have ht : (buf.take t.sizeOf).length = t.sizeOf := by rw [List.length_take]; omega
  have h₁ := read_partial t h a [] (buf.take t.sizeOf) (buf.drop t.sizeOf) ht
  simp only [List.nil_append, List.take_append_drop, List.length_nil] at h₁
  rw [readLoop]
  simp only [List.cons_append, List.getElem?_cons_zero, h₁]
  have := readLoop_over t h (t.bytes a) (bytes_length t a) us [a] [] ((buf.drop t.sizeOf).take t.sizeOf)
    ((buf.drop t.sizeOf).drop t.sizeOf) (by rw [List.length_take, List.length_drop]; omega) v
  simp only [List.append_nil, List.cons_append, List.nil_append, List.length_cons, List.length_nil,
    List.append_assoc, List.take_append_drop] at this
  rw [this, List.drop_drop]
  simp only [List.append_assoc]
  rw [show t.sizeOf + t.sizeOf = 2 * t.sizeOf by omega]

example : readAt (.num 1) [1#8, 2#8, 3#8, 4#8] [9, 9, 9, 9] 0 = some ([1, 4, 9, 9], 4) :=
  readAt_many (.num 1) trivial (by decide) 1#8 4#8 [2#8, 3#8] _ rfl

end Verif.Ffi
