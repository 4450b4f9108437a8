import Verif.Rest.ParseModel
import Verif.Rest.ParseSpec
/-!
# Which field an index leads to

An index path selects a field of a struct, then a field of that field, and so on, looking
through pointers. A query parameter that stands for a field is named after the fields leading
to it, joined with dots; embedded structs add nothing to the names of their fields.
-/
namespace Verif.Rest.Spec

/-- The i-th field. -/
def fieldAt : Fields → Nat → Option (FieldInfo × Ty)
  | .nil, _ => none
  | .cons f t _, 0 => some (f, t)
  | .cons _ _ rest, i + 1 => fieldAt rest i

/-- The fields of a struct, looking through pointers. -/
def fieldsOf : Ty → Option Fields
  | .ptr t => fieldsOf t
  | .struct _ fs => some fs
  | .scalar _ => none

/-- The type behind pointers. -/
def behind : Ty → Ty
  | .ptr t => behind t
  | t => t

/-- The fields on the way along an index path, and the type at its end. -/
def chain : Fields → List Nat → Option (List FieldInfo × Ty)
  | _, [] => none
  | fs, [i] => (fieldAt fs i).map (fun x => ([x.1], x.2))
  | fs, i :: j :: is =>
    match fieldAt fs i with
    | none => none
    | some (f, t) =>
      match fieldsOf t with
      | none => none
      | some fs' => (chain fs' (j :: is)).map (fun x => (f :: x.1, x.2))

/-- What a field calls itself: by its `rest` tag, else its `json` tag up to a comma, else its
own name. -/
def ownName (f : FieldInfo) : List Char :=
  if f.restTag ≠ [] then f.restTag
  else if f.jsonTag.takeWhile (· ≠ ',') ≠ [] then f.jsonTag.takeWhile (· ≠ ',')
  else f.name

/-- The dotted name of a chain of fields: embedded structs on the way are left out. -/
def dotted (cs : List FieldInfo) : List Char :=
  ((cs.dropLast.filter (fun f => !f.anonymous) ++ cs.getLast?.toList).map ownName).intersperse ['.'] |>.flatten

/-- Whether a type or a pointer to it unmarshals from text: the methods of a type are also
those of a pointer to it, but not those of a pointer to a pointer. -/
def textual : Ty → Bool
  | .scalar b => b
  | .struct b _ => b
  | .ptr t => match t with
    | .scalar b => b
    | .struct b _ => b
    | .ptr _ => false

/-- A path to a leaf: exported fields all the way, structs on the way that do not unmarshal
from text, and at the end something that does or is no struct. -/
inductive LeafPath : Fields → List Nat → Prop where
  | here {fs i f t} : fieldAt fs i = some (f, t) → f.exported = true →
      (fieldsOf t = none ∨ textual t = true) → LeafPath fs [i]
  | down {fs i f t fs' is} : fieldAt fs i = some (f, t) → f.exported = true →
      fieldsOf t = some fs' → textual t = false → LeafPath fs' is → LeafPath fs (i :: is)

mutual
/-- Every field has a name, as in Go. -/
def TyNamed : Ty → Prop
  | .scalar _ => True
  | .ptr t => TyNamed t
  | .struct _ fs => FieldsNamed fs
/-- Every field has a name, as in Go. -/
def FieldsNamed : Fields → Prop
  | .nil => True
  | .cons f t rest => f.name ≠ [] ∧ TyNamed t ∧ FieldsNamed rest
end

/-- Following field names (not through pointers) leads along a path to a type; in each struct
the name is that of one field only. -/
inductive NamePath : Fields → List (List Char) → List Nat → Ty → Prop where
  | here {fs n i f t} : fieldAt fs i = some (f, t) → f.name = n →
      (∀ j f' t', fieldAt fs j = some (f', t') → f'.name = n → j = i) → NamePath fs [n] [i] t
  | down {fs n ns i f b fs' is t} : fieldAt fs i = some (f, .struct b fs') → f.name = n →
      (∀ j f' t', fieldAt fs j = some (f', t') → f'.name = n → j = i) →
      NamePath fs' ns is t → NamePath fs (n :: ns) (i :: is) t

/-- Names with dots between. -/
def dots : List (List Char) → List Char
  | [] => []
  | [x] => x
  | x :: y :: xs => x ++ '.' :: dots (y :: xs)

/-- A name that can be written as a parameter. -/
def CleanField (n : List Char) : Prop := CleanName n ∧ '.' ∉ n

end Verif.Rest.Spec
