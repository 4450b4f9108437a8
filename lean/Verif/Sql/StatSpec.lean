import Verif.Sql.StatModel
import Verif.Sql.WalkSpec

/-! Specification for C212 and C213: what statistics should be, and drivers that scan what is stored. -/
namespace Verif.Sql.Stat

/-- The numbers a counter can hold. -/
def CKind.Holds : CKind → Int → Prop
  | .int32, z => -2 ^ 31 ≤ z ∧ z < 2 ^ 31
  | .int64, z => -2 ^ 63 ≤ z ∧ z < 2 ^ 63
  | .uint32, z => 0 ≤ z ∧ z < 2 ^ 32
  | .uint64, z => 0 ≤ z ∧ z < 2 ^ 64

/-- The pointer of a statistic. -/
def Item.ptr : Item → Nat
  | .count _ p => p
  | .sum _ _ p => p

/-- What a statistic should be when `n` records match and `total` is the sum of each field over them. -/
def Item.answer (n : Nat) (total : Nat → Int) : Item → Int
  | .count _ _ => n
  | .sum _ f _ => total f

/-- What a statistic should be can be held by what it points to; sums are over fields of an integer type, stored in columns
of that type. -/
def Item.Fine (n : Nat) (total : Nat → Int) (col : Nat → Col) : Item → Prop
  | .count k _ => k.Holds n
  | .sum k f _ => Fits k (.int (total f)) ∧ (col f).2 = tagOf k

/-- A scanner of a driver that delivers what the database has: the answers to the calculations. -/
def Scans (is : List Item) (n : Nat) (total : Nat → Int) (ks : List Kind) (scan : List Kind → Option (List Atom)) : Prop :=
  scan ks = some (is.map fun i => .int (i.answer n total))

end Verif.Sql.Stat
