import Verif.Vm.CbModel
/-!
# Go functions given to C: what is wanted
-/
namespace Verif.Vm.Cb.Spec

/-- A string of C: bytes before a 0. -/
def Reads (mem : Nat → BitVec 8) (p : Nat) (bs : List (BitVec 8)) : Prop :=
  (∀ i (h : i < bs.length), mem (p + i) = bs[i] ∧ bs[i] ≠ 0) ∧ mem (p + bs.length) = 0

/-- The Go value of a parameter of that kind is what C passed for it, as an argument of the type of C of the same size
and sign; what is beyond it in its register does not matter. -/
def Means (mem : Nat → BitVec 8) (k : Kind) (w : W) (v : GV) : Prop :=
  match k with
  | .bool => ∃ b, v = .bool b ∧ (b = false ↔ w.toNat % 2 ^ 8 = 0)
  | .int8 => ∃ x, v = .int8 x ∧ x.toNat = w.toNat % 2 ^ 8
  | .int16 => ∃ x, v = .int16 x ∧ x.toNat = w.toNat % 2 ^ 16
  | .int32 => ∃ x, v = .int32 x ∧ x.toNat = w.toNat % 2 ^ 32
  | .int64 => v = .int64 w
  | .uint8 => ∃ x, v = .uint8 x ∧ x.toNat = w.toNat % 2 ^ 8
  | .uint16 => ∃ x, v = .uint16 x ∧ x.toNat = w.toNat % 2 ^ 16
  | .uint32 => ∃ x, v = .uint32 x ∧ x.toNat = w.toNat % 2 ^ 32
  | .uint64 => v = .uint64 w
  | .float32 => ∃ x, v = .float32 x ∧ x.toNat = w.toNat % 2 ^ 32
  | .float64 => v = .float64 w
  | .string => ∀ bs, Reads mem w.toNat bs → v = .string bs
  | .pointer | .unsafePointer => v = .pointer w
  | _ => False

/-- What C gets is the number that Go returned: the bits of its type are the same, and it is extended by its sign. -/
def Gets (v : GV) (w : BitVec 64) : Prop :=
  match v with
  | .bool b => w = if b then 1 else 0
  | .int8 x => w.toInt = x.toInt
  | .int16 x => w.toInt = x.toInt
  | .int32 x => w.toInt = x.toInt
  | .int64 x => w = x
  | .uint8 x => w.toNat = x.toNat
  | .uint16 x => w.toNat = x.toNat
  | .uint32 x => w.toNat = x.toNat
  | .uint64 x => w = x
  | .float32 x => w.toNat = x.toNat
  | .float64 x => w = x
  | .pointer x => w = x
  | _ => False

/-- A value of a kind. -/
def Typed : Kind → GV → Prop
  | .bool, .bool _ | .int8, .int8 _ | .int16, .int16 _ | .int32, .int32 _ | .int64, .int64 _
  | .uint8, .uint8 _ | .uint16, .uint16 _ | .uint32, .uint32 _ | .uint64, .uint64 _
  | .float32, .float32 _ | .float64, .float64 _ | .string, .string _ | .pointer, .pointer _
  | .unsafePointer, .pointer _ => True
  | _, _ => False

end Verif.Vm.Cb.Spec
