import Verif.Data.Model
/-!
# What validation should do

A constraint on a field is stated by what the documentation of `Missing`, `Exceeds` and `Invalid` says.
-/
namespace Verif.Data

/-- A constraint on one field, as it is written: `Missing()`, `Exceeds(limit)` or `Invalid(class, fn, hints...)`. -/
inductive Constraint where
  | required
  | atMost (limit : Int)
  | valid (cls : Str) (fn : Val → Bool) (hints : List Str)

/-- A field of a struct with its value. -/
structure Member where
  fld : Fld
  val : Val

/-- A value counts as provided: a number that is not 0, a string, slice or map that is not empty, a pointer that is not
nil. -/
def Provided : Val → Prop
  | .num n => n ≠ 0
  | .str s => s ≠ []
  | .slice vs => vs ≠ []
  | .map kvs => kvs ≠ []
  | .ptr p => p ≠ none

/-- The length of a value is within a limit. -/
def Within (limit : Int) : Val → Prop
  | .num _ => 0 ≤ limit
  | .ptr _ => 0 ≤ limit
  | .str s => (s.length : Int) ≤ limit
  | .slice vs => (vs.length : Int) ≤ limit
  | .map kvs => (kvs.length : Int) ≤ limit

/-- The constraint holds of the value. -/
def Constraint.Holds : Constraint → Val → Prop
  | .required, v => Provided v
  | .atMost n, v => Within n v
  | .valid _ fn _, v => fn v = true

/-- The call of this package that checks the constraint on a member. -/
def Constraint.check (c : Constraint) (m : Member) : Option Err :=
  match c with
  | .required => missing m.fld.ref m.val
  | .atMost n => exceeds m.fld.ref m.val n
  | .valid cls fn hints => invalid m.fld.ref m.val cls fn hints

/-- A `Validate` method: `Object(&x).Reports(...)` with these checks on the members of `x`. -/
def validate (value : Ref) (members : List Member) (checks : List (Member × Constraint)) : Option (Option Err) :=
  reports value (.struct (members.map Member.fld)) (checks.map fun p => p.2.check p.1)

/-- A struct that Go can have: no two of its fields are at one address with one type (fields without a size apart). -/
def DistinctRefs (members : List Member) : Prop :=
  ∀ a ∈ members, ∀ b ∈ members, a.fld.ref = b.fld.ref → a.fld = b.fld

/-- All fields of the struct are exported. -/
def AllExported (members : List Member) : Prop := ∀ a ∈ members, a.fld.exported = true

/-- A list in English: `a`, `a and b`, `a, b and c`. -/
inductive InEnglish : List Str → Str → Prop
  | one (a : Str) : InEnglish [a] a
  | two (a b : Str) : InEnglish [a, b] (a ++ " and ".toList ++ b)
  | more (a b c : Str) (rest : List Str) (t : Str) : InEnglish (b :: c :: rest) t →
      InEnglish (a :: b :: c :: rest) (a ++ ", ".toList ++ t)

end Verif.Data
