import Verif.Sql.Flat
import Verif.Sql.FlatSpec

/-! Specification for C208: the parts of a record, and tags without options. -/
namespace Verif.Sql

/-- The type of the field number `i`. -/
def Fields.ty : Fields → Nat → Option Ty
  | .nil, _ => none
  | .cons _ t _, 0 => some t
  | .cons _ _ rest, i + 1 => rest.ty i

/-- The type of the part at a position: field numbers for structs, element numbers for arrays. -/
def Ty.part : Ty → List Nat → Option Ty
  | t, [] => some t
  | .struct fs, i :: p => (fs.ty i).bind fun t => t.part p
  | .array n t, i :: p => if i < n then t.part p else none
  | _, _ :: _ => none

/-- The part of a record at a position. -/
def Val.part : Val → List Nat → Option Val
  | v, [] => some v
  | .many vs, i :: p => (vs[i]?).bind fun v => v.part p
  | .scalar _, _ :: _ => none

/-- The record with the part at a position replaced: the Go assignment `v.A[i].B = x`. -/
def Val.put : Val → List Nat → Val → Val
  | _, [], x => x
  | .many vs, i :: p, x => .many (vs.modify i fun v => v.put p x)
  | .scalar a, _ :: _, _ => .scalar a

mutual
/-- No struct (other than an embedded one) and no array has a `sql` tag with a comma. -/
def NoOptions (f : Meta) : Ty → Prop
  | .struct fs => (f.anonymous = true ∨ ',' ∉ f.sql) ∧ NoOptionsFields fs
  | .array _ t => ',' ∉ f.sql ∧ NoOptions ⟨[], [], [], true, false⟩ t
  | _ => True
/-- The same for every field. -/
def NoOptionsFields : Fields → Prop
  | .nil => True
  | .cons f t rest => NoOptions f t ∧ NoOptionsFields rest
end

mutual
/-- No pointer, map, function, interface or slice other than `[]byte`, at any depth. -/
def Supported : Ty → Prop
  | .unsupported => False
  | .struct fs => AllSupported fs
  | .array _ t => Supported t
  | .scalar _ => True
/-- The same for fields. -/
def AllSupported : Fields → Prop
  | .nil => True
  | .cons _ t rest => Supported t ∧ AllSupported rest
end

/-- What a column name and type is. -/
abbrev NamedCol := List Char × Tag

/-- The columns `cs` are where the part at position `p` of a record of type `t` is stored, if `cols` are the columns of the
whole record: whatever the record is, the values of the part are the values stored in just these columns, and to assign to
the part is to change just these columns. -/
def Stores (t : Ty) (cols : List NamedCol) (p : List Nat) (cs : List NamedCol) : Prop :=
  ∃ before after, cols = before ++ cs ++ after ∧
    ∀ v w s, HasTy t v → t.part p = some s → v.part p = some w →
      ∃ xs l r, valuesOf t v = some (l ++ xs ++ r) ∧ valuesOf s w = some xs ∧
        l.length = before.length ∧ r.length = after.length ∧ xs.map (·.1) = cs.map (·.2) ∧
        ∀ x ys, HasTy s x → valuesOf s x = some ys → valuesOf t (v.put p x) = some (l ++ ys ++ r)

end Verif.Sql
