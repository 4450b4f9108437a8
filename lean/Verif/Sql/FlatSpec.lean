import Verif.Sql.Flat

/-! What it means for a value to be of a type, and the documented column names. -/
namespace Verif.Sql

/-- The contents a scalar of each kind can have. -/
def Fits : Kind → Atom → Prop
  | .bool, .bool _ => True
  | .int8, .int z => -2 ^ 7 ≤ z ∧ z < 2 ^ 7
  | .int16, .int z => -2 ^ 15 ≤ z ∧ z < 2 ^ 15
  | .int32, .int z => -2 ^ 31 ≤ z ∧ z < 2 ^ 31
  | .int64, .int z => -2 ^ 63 ≤ z ∧ z < 2 ^ 63
  | .int, .int z => -2 ^ 63 ≤ z ∧ z < 2 ^ 63
  | .uint8, .int z => 0 ≤ z ∧ z < 2 ^ 8
  | .uint16, .int z => 0 ≤ z ∧ z < 2 ^ 16
  | .uint32, .int z => 0 ≤ z ∧ z < 2 ^ 32
  | .uint64, .int z => 0 ≤ z ∧ z < 2 ^ 64
  | .uint, .int z => 0 ≤ z ∧ z < 2 ^ 64
  | .uintptr, .int z => 0 ≤ z ∧ z < 2 ^ 64
  | .float32, .opaque _ => True
  | .float64, .opaque _ => True
  | .string, .opaque _ => True
  | .bytes, .opaque _ => True
  | .time, .opaque _ => True
  | _, _ => False

mutual
/-- The value is of the type. -/
def HasTy : Ty → Val → Prop
  | .scalar k, .scalar a => Fits k a
  | .struct fs, .many vs => HaveTys fs vs
  | .array n t, .many vs => vs.length = n ∧ ∀ v ∈ vs, HasTy t v
  | _, _ => False
/-- The values are of the types of the fields. -/
def HaveTys : Fields → List Val → Prop
  | .nil, [] => True
  | .cons _ t rest, v :: vs => HasTy t v ∧ HaveTys rest vs
  | _, _ => False
end

mutual
/-- Every struct field, at any depth, is exported. -/
def Exported : Ty → Prop
  | .struct fs => AllExported fs
  | .array _ t => Exported t
  | _ => True
/-- The same for fields. -/
def AllExported : Fields → Prop
  | .nil => True
  | .cons f t rest => f.exported = true ∧ Exported t ∧ AllExported rest
end

/-- The documented name of a field: its `sql` tag up to the first comma, else its `txt` tag, else its lower case name. -/
def docOwn (f : Meta) : List Char :=
  match f.sql, f.txt with
  | [], [] => f.name.map Char.toLower
  | [], txt => txt
  | sql, _ => sql.takeWhile (· != ',')

/-- Names separated by underscores. -/
def docJoin (names : List (List Char)) : List Char := ['_'].intercalate names

/-- The names of the columns of the elements number `i + 1` onwards, given those of one element by its name. -/
def docNamesElems (one : List Char → List (List Char)) (own : List Char) (i : Nat) : Nat → List (List Char)
  | 0 => []
  | n + 1 => one (own ++ (toString (i + 1)).toList) ++ docNamesElems one own (i + 1) n

mutual
/-- The column names documented for `Open` (sql/map.go:63-77): the names of the enclosing fields that are not embedded and
the field's own name, separated by underscores, array elements being suffixed by their index. -/
def docNames : Ty → List (List Char) → List Char → Bool → List (List Char)
  | .scalar _, path, own, _ => [docJoin (path ++ [own])]
  | .struct fs, path, own, anonymous => docNamesFields fs (if anonymous then path else path ++ [own])
  | .array n t, path, own, _ => docNamesElems (fun name => docNames t path name false) own 0 n
  | .unsupported, _, _, _ => []
/-- The names of the columns of the fields. -/
def docNamesFields : Fields → List (List Char) → List (List Char)
  | .nil, _ => []
  | .cons f t rest, path => docNames t path (docOwn f) f.anonymous ++ docNamesFields rest path
end

mutual
/-- Scalars and embedded structs of such. -/
def Leafy (anonymous : Bool) : Ty → Prop
  | .scalar _ => True
  | .struct fs => anonymous = true ∧ LeafyFields fs
  | _ => False
/-- The same for fields. -/
def LeafyFields : Fields → Prop
  | .nil => True
  | .cons f t rest => Leafy f.anonymous t ∧ LeafyFields rest
end

mutual
/-- At most one level of named nesting, and no arrays. -/
def Shallow (anonymous : Bool) : Ty → Prop
  | .scalar _ => True
  | .struct fs => if anonymous then ShallowFields fs else LeafyFields fs
  | _ => False
/-- The same for fields. -/
def ShallowFields : Fields → Prop
  | .nil => True
  | .cons f t rest => Shallow f.anonymous t ∧ ShallowFields rest
end

end Verif.Sql
