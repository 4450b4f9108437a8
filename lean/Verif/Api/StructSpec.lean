import Verif.Api.StructModel
/-!
# What the structure of an API should be
-/
namespace Verif.Api

mutual
/-- The addresses of all function fields of a struct and of the structs in it. -/
def GoStruct.funcs : GoStruct → List Nat
  | .mk fs => fs.funcs
/-- Those of fields. -/
def Fields.funcs : Fields → List Nat
  | .nil => []
  | .func _ _ a r => a :: r.funcs
  | .register _ _ r => r.funcs
  | .sub _ s r => s.funcs ++ r.funcs
  | .other r => r.funcs
end

/-- The names of the fields that hold structs. -/
def Fields.names : Fields → List Str
  | .nil => []
  | .func _ _ _ r => r.names
  | .register n _ r => n :: r.names
  | .sub n _ r => n :: r.names
  | .other r => r.names

mutual
/-- In a Go struct, names of fields are distinct, unless they are blank. -/
def GoStruct.Distinct : GoStruct → Prop
  | .mk fs => fs.names.Nodup ∧ fs.Distinct
/-- For the structs in fields. -/
def Fields.Distinct : Fields → Prop
  | .nil => True
  | .func _ _ _ r => r.Distinct
  | .register _ _ r => r.Distinct
  | .sub _ s r => s.Distinct ∧ r.Distinct
  | .other r => r.Distinct
end

/-- An entry of a namespace. -/
inductive Entry (name : Str) (t : Tree) : Spaces → Prop where
  | here {r : Spaces} : Entry name t (.cons name t r)
  | there {k : Str} {u : Tree} {r : Spaces} (h : Entry name t r) : Entry name t (.cons k u r)

/-- A function is in the namespace that is reached from a structure by going down some names, and `t'` is the structure
of that namespace. -/
inductive At : Tree → List Str → Fn → Tree → Prop where
  | here {fns : List Fn} {scs : List Scenario} {ns : Spaces} {f : Fn} (h : f ∈ fns) :
    At (.mk fns scs ns) [] f (.mk fns scs ns)
  | down {fns : List Fn} {scs : List Scenario} {ns : Spaces} {name : Str} {t t' : Tree} {loc : List Str} {f : Fn}
    (h : Entry name t ns) (k : At t loc f t') : At (.mk fns scs ns) (name :: loc) f t'

mutual
/-- How deep namespaces are nested. -/
def Tree.depth : Tree → Nat
  | .mk _ _ ns => ns.depth
/-- That of the deepest namespace, and one. -/
def Spaces.depth : Spaces → Nat
  | .nil => 0
  | .cons _ t r => max (t.depth + 1) r.depth
end

/-- How many namespaces there are. -/
def Spaces.size : Spaces → Nat
  | .nil => 0
  | .cons _ _ r => r.size + 1

/-- The capacity of a slice that was made with one element and got the others one by one. -/
def capAt : Nat → Nat
  | 0 => 0
  | 1 => 1
  | n + 2 => if n + 1 < capAt (n + 1) then capAt (n + 1) else grow (n + 1)

mutual
/-- Namespaces at depths where the slice of the path has room left have one child at most. -/
def Tree.Thin (d : Nat) : Tree → Prop
  | .mk _ _ ns => (d < capAt d → ns.size ≤ 1) ∧ ns.Thin (d + 1)
/-- All namespaces, which are at depth `d`. -/
def Spaces.Thin (d : Nat) : Spaces → Prop
  | .nil => True
  | .cons _ t r => t.Thin d ∧ r.Thin d
end

end Verif.Api
