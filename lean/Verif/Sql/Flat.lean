/-
Model of the flattening of records into columns: `ValuesOf`, `columnsOf` and `decode` of sql/sql.go:605-823.

Simplifications, stated once:
* A type is described by its kind and its fields; `time.Time` and `[]byte` are scalars, as the code treats them. Pointers
  (which `ValuesOf` follows, but for which `columnsOf` panics), types with an `Interface` method and slices other than
  `[]byte` are left out (`unsupported`).
* Floating point numbers, times, strings and bytes are opaque contents. `strings.ToLower` is modelled on ASCII.
* A Go panic is `none`.
-/
namespace Verif.Sql

/-- The kinds of Go values that become one column (`sql/sql.go:617-650`). -/
inductive Kind where
  | bool | int8 | int16 | int32 | int64 | int | uint8 | uint16 | uint32 | uint64 | uint | uintptr
  | float32 | float64 | string | bytes | time
  deriving DecidableEq, Repr

/-- The cases of `sodium.Value`, sql/std/sodium/sql.go:48-63. -/
inductive Tag where
  | bool | int8 | int16 | int32 | int64 | uint8 | uint16 | uint32 | uint64 | float32 | float64 | string | bytes | time
  deriving DecidableEq, Repr

/-- The contents of a scalar (`sql/sql.go:617-650`). -/
inductive Atom where
  | bool (b : Bool)
  | int (z : Int)
  | opaque (bs : List Nat)
  deriving DecidableEq, Repr

/-- A struct field's name and tags (`reflect.StructField`, `sql/sql.go:674-682`). -/
structure Meta where
  name : List Char
  txt : List Char
  sql : List Char
  exported : Bool
  anonymous : Bool
  deriving DecidableEq, Repr

mutual
/-- A Go type (`reflect.Type`, `sql/sql.go:605-670`). -/
inductive Ty where
  | scalar (k : Kind)
  | struct (fs : Fields)
  | array (n : Nat) (t : Ty)
  | unsupported
/-- The fields of a struct (`sql/sql.go:655`, `:725`). -/
inductive Fields where
  | nil
  | cons (f : Meta) (t : Ty) (rest : Fields)
end

/-- A Go value of such a type: structs and arrays are lists of values (`rvalue`, `sql/sql.go:617`). -/
inductive Val where
  | scalar (a : Atom)
  | many (vs : List Val)

/-- The low `n` bits of an integer as a signed number: Go's `int8(x)` and so on (`sql/sql.go:617-650`). -/
def toSigned (n : Nat) (z : Int) : Int := z.bmod (2 ^ n)

/-- The low `n` bits of an integer as an unsigned number: Go's `uint8(x)` and so on (`sql/sql.go:617-650`). -/
def toUnsigned (n : Nat) (z : Int) : Int := z % 2 ^ n

/-- A conversion applied to a number (`sql/sql.go:617-650`). -/
def Atom.mapInt (f : Int → Int) : Atom → Option Atom
  | .int z => some (.int (f z))
  | _ => none

/-- The column value of a scalar, sql/sql.go:617-650. -/
def valueOfScalar : Kind → Atom → Option (Tag × Atom)
  | .bool, .bool b => some (.bool, .bool b)
  | .int8, a => (a.mapInt (toSigned 8)).map fun x => (.int8, x)
  | .int16, a => (a.mapInt (toSigned 16)).map fun x => (.int16, x)
  | .int32, a => (a.mapInt (toSigned 32)).map fun x => (.int32, x)
  | .int64, a => (a.mapInt (toSigned 64)).map fun x => (.int64, x)
  | .int, a => (a.mapInt (toSigned 64)).map fun x => (.int64, x)
  | .uint8, a => (a.mapInt (toUnsigned 8)).map fun x => (.uint8, x)
  | .uint16, a => (a.mapInt (toUnsigned 16)).map fun x => (.uint16, x)
  | .uint32, a => (a.mapInt (toUnsigned 32)).map fun x => (.uint32, x)
  | .uint64, a => (a.mapInt (toUnsigned 64)).map fun x => (.uint64, x)
  | .uint, a => (a.mapInt (toUnsigned 64)).map fun x => (.uint64, x)
  | .uintptr, a => (a.mapInt (toUnsigned 64)).map fun x => (.uint64, x)
  | .float32, .opaque b => some (.float32, .opaque b)
  | .float64, .opaque b => some (.float64, .opaque b)
  | .string, .opaque b => some (.string, .opaque b)
  | .bytes, .opaque b => some (.bytes, .opaque b)
  | .time, .opaque b => some (.time, .opaque b)
  | _, _ => none

mutual
/-- `ValuesOf`, sql/sql.go:605-670. Fields that are not exported are passed over (line 657). -/
def valuesOf : Ty → Val → Option (List (Tag × Atom))
  | .scalar k, .scalar a => (valueOfScalar k a).map fun x => [x]
  | .struct fs, .many vs => valuesOfFields fs vs
  | .array n t, .many vs => if vs.length = n then valuesOfElems t vs else none
  | _, _ => none
/-- The loop over the fields, sql/sql.go:655-661. -/
def valuesOfFields : Fields → List Val → Option (List (Tag × Atom))
  | .nil, [] => some []
  | .cons f t rest, v :: vs =>
    if f.exported then
      match valuesOf t v, valuesOfFields rest vs with
      | some a, some b => some (a ++ b)
      | _, _ => none
    else valuesOfFields rest vs
  | _, _ => none
/-- The loop over the elements, sql/sql.go:663-665. -/
def valuesOfElems (t : Ty) : List Val → Option (List (Tag × Atom))
  | [] => some []
  | v :: vs =>
    match valuesOf t v, valuesOfElems t vs with
    | some a, some b => some (a ++ b)
    | _, _ => none
end

/-- The type of a scalar column, sql/sql.go:693-720, 730-736. -/
def tagOf : Kind → Tag
  | .bool => .bool | .int8 => .int8 | .int16 => .int16 | .int32 => .int32 | .int64 => .int64 | .int => .int64
  | .uint8 => .uint8 | .uint16 => .uint16 | .uint32 => .uint32 | .uint64 => .uint64 | .uint => .uint64 | .uintptr => .uint64
  | .float32 => .float32 | .float64 => .float64 | .string => .string | .bytes => .bytes | .time => .time

/-- `strings.Cut(tag, ",")`: the part before the first comma (`sql/sql.go:677-682`). -/
def beforeComma : List Char → List Char
  | [] => []
  | c :: cs => if c = ',' then [] else c :: beforeComma cs

/-- `strings.Join(path, "_") + "_" + name` when there is a path, sql/sql.go:683-685. -/
def joinPath : List (List Char) → List Char → List Char
  | [], name => name
  | p :: ps, name => p ++ '_' :: joinPath ps name

/-- The name of a field's own column, sql/sql.go:676-682. -/
def ownName (f : Meta) : List Char :=
  if f.sql ≠ [] then beforeComma f.sql else if f.txt ≠ [] then f.txt else f.name.map Char.toLower

/-- `fmt.Sprintf("%s%d", column.Name, i+1)`, sql/sql.go:737. -/
def elemMeta (name : List Char) (i : Nat) : Meta := ⟨name ++ (toString (i + 1)).toList, [], [], true, false⟩

/-- The loop over the elements, sql/sql.go:735-742, given the columns of one. -/
def columnsOfElems (one : Meta → Option (List (List Char × Tag))) (name : List Char) (i : Nat) : Nat → Option (List (List Char × Tag))
  | 0 => some []
  | n + 1 =>
    match one (elemMeta name i), columnsOfElems one name (i + 1) n with
    | some a, some b => some (a ++ b)
    | _, _ => none

mutual
/-- `columnsOf`, sql/sql.go:674-753: the names and types of the columns of a field of the given type, path and name. -/
def columnsOf : Ty → List (List Char) → Meta → Option (List (List Char × Tag))
  | .scalar k, path, f => some [(joinPath path (ownName f), tagOf k)]
  | .struct fs, path, f => columnsOfFields fs (if f.anonymous then path else path ++ [joinPath path (ownName f)])
  | .array n t, path, f => columnsOfElems (columnsOf t path) (joinPath path (ownName f)) 0 n
  | .unsupported, _, _ => none
/-- The loop over the fields, sql/sql.go:725-732. -/
def columnsOfFields : Fields → List (List Char) → Option (List (List Char × Tag))
  | .nil, _ => some []
  | .cons f t rest, path =>
    match columnsOf t path f, columnsOfFields rest path with
    | some a, some b => some (a ++ b)
    | _, _ => none
end

mutual
/-- `Type.Size() == 0` (`sql/sql.go:763`). -/
def zeroSize : Ty → Bool
  | .scalar _ => false
  | .struct fs => zeroSizeFields fs
  | .array n t => n == 0 || zeroSize t
  | .unsupported => false
/-- All fields are of size zero (`sql/sql.go:763`). -/
def zeroSizeFields : Fields → Bool
  | .nil => true
  | .cons _ t rest => zeroSize t && zeroSizeFields rest
end

mutual
/-- The zero value of a type (what `decode`, `sql/sql.go:755`, is given). -/
def zeroVal : Ty → Val
  | .scalar .bool => .scalar (.bool false)
  | .scalar k => .scalar (match k with
    | .float32 | .float64 | .string | .bytes | .time => .opaque []
    | _ => .int 0)
  | .struct fs => .many (zeroVals fs)
  | .array n t => .many (List.replicate n (zeroVal t))
  | .unsupported => .many []
/-- The zero values of the fields (what `decode`, `sql/sql.go:755`, is given). -/
def zeroVals : Fields → List Val
  | .nil => []
  | .cons _ t rest => zeroVal t :: zeroVals rest
end

/-- The loop over the elements, sql/sql.go:810-817, given how one is read. -/
def decodeElems (one : List (Tag × Atom) → Option (Val × List (Tag × Atom))) : Nat → List (Tag × Atom) → Option (List Val × List (Tag × Atom))
  | 0, vs => some ([], vs)
  | n + 1, vs =>
    match one vs with
    | none => none
    | some (v, vs') =>
      match decodeElems one n vs' with
      | none => none
      | some (l, vs'') => some (v :: l, vs'')

/-- `case` of a scalar kind and line 819, sql/sql.go:766-795. -/
def decodeScalar (k : Kind) : List (Tag × Atom) → Option (Val × List (Tag × Atom))
  | [] => none
  | (g, a) :: rest => if g = tagOf k then some (.scalar a, rest) else none

mutual
/-- `decode` into a zero value, sql/sql.go:755-823; line 763 returns early for types of size zero. Reading a value as a case
it is not panics (xyz/tagged.go:554-580), and so does `ptr.Interface()` for a field that is not exported (line 756). -/
def decode : Ty → List (Tag × Atom) → Option (Val × List (Tag × Atom))
  | .scalar k, vs => decodeScalar k vs
  | .struct fs, vs =>
    if zeroSizeFields fs then some (zeroVal (.struct fs), vs) else (decodeFields fs vs).map fun r => (.many r.1, r.2)
  | .array n t, vs =>
    if n == 0 || zeroSize t then some (zeroVal (.array n t), vs) else (decodeElems (decode t) n vs).map fun r => (.many r.1, r.2)
  | .unsupported, vs => some (zeroVal .unsupported, vs.drop 1)
/-- The loop over the fields, sql/sql.go:801-808. -/
def decodeFields : Fields → List (Tag × Atom) → Option (List Val × List (Tag × Atom))
  | .nil, vs => some ([], vs)
  | .cons f t rest, vs =>
    if f.exported then
      match decode t vs with
      | none => none
      | some (v, vs') =>
        match decodeFields rest vs' with
        | none => none
        | some (l, vs'') => some (v :: l, vs'')
    else none
end

end Verif.Sql
