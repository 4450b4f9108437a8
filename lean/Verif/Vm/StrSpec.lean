import Verif.Vm.StrModel
/-!
# Strings in calls: what C reads
-/
namespace Verif.Vm.Str.Spec

/-- The `n` bytes at an address are these. -/
def Bytes (mem : Mem) (p : Nat) (bs : List (BitVec 8)) : Prop := ∀ i (h : i < bs.length), mem (p + i) = bs[i]

/-- C reads the string `bs` at an address: these bytes, none of them 0, and then a 0. -/
def Reads (mem : Mem) (p : Nat) (bs : List (BitVec 8)) : Prop :=
  Bytes mem p bs ∧ mem (p + bs.length) = 0 ∧ 0 ∉ bs

/-- A Go string is in memory in use. -/
def GoString (mem : Mem) (next : Nat) (p n : W) (bs : List (BitVec 8)) : Prop :=
  n.toNat = bs.length ∧ Bytes mem p.toNat bs ∧ p.toNat + n.toNat ≤ next

end Verif.Vm.Str.Spec
