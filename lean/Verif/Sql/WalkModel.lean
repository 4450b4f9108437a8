import Verif.Sql.Flat

/-
Model of how a pointer into a record becomes columns: `sentinal.assert` and `sentinal.walk` of sql/map.go:506-569 and
`columnOf` of sql/sql.go:119-124, on the types of Verif/Sql/Flat.lean.

Simplifications, stated once:
* The address of a field inside the sentinel record is its position: the numbers of the fields and elements on the way to
  it. (In Go the key of `mirror` is the typed pointer. Fields of size zero may share an address, but then both have no
  columns.) Types with a `RawPointer` method are left out, as are those with `Interface` in Flat.lean.
* The two registries `sentinals` and `mirror` are one list from a table name and a type to the columns registered for it.
-/
namespace Verif.Sql

/-- A column: its name and its type (`sodium.Column`, sql/std/sodium/sql.go:179-185, without the tags). -/
abbrev Col := List Char × Tag

/-- What `mirror` says about the fields of one record: their positions and columns (sql/map.go:507). -/
abbrev Mirror := List (List Nat × List Col)

/-- The name `walk` gives a field: unlike `columnsOf` it does not cut the tag at a comma, sql/map.go:534-540. -/
def walkName (f : Meta) : List Char :=
  if f.sql ≠ [] then f.sql else if f.txt ≠ [] then f.txt else f.name.map Char.toLower

/-- The entries of a part, as entries of the whole: its number is put in front of the positions (`arg.Field(i)`,
`arg.Index(i)`, sql/map.go:558 and 566). -/
def underPos (i : Nat) (m : Mirror) : Mirror := m.map fun e => (i :: e.1, e.2)

/-- The loop over the elements, sql/map.go:560-567, given the walk of one. -/
def walkElems (one : Meta → Option Mirror) (name : List Char) (i : Nat) : Nat → Option Mirror
  | 0 => some []
  | n + 1 =>
    match one (elemMeta name i), walkElems one name (i + 1) n with
    | some a, some b => some (underPos i a ++ b)
    | _, _ => none

mutual
/-- `sentinal.walk`, sql/map.go:533-569: the positions and columns it registers for a field of the given type, path and
name, the field itself first (line 544). A panic of `columnsOf` is `none`. -/
def walk : Ty → List (List Char) → Meta → Option Mirror
  | .scalar k, path, f => (columnsOf (.scalar k) path f).map fun c => [([], c)]
  | .struct fs, path, f =>
    match columnsOf (.struct fs) path f, walkFields fs (if f.anonymous then path else path ++ [joinPath path (walkName f)]) 0 with
    | some c, some m => some (([], c) :: m)
    | _, _ => none
  | .array n t, path, f =>
    match columnsOf (.array n t) path f, walkElems (walk t path) (joinPath path (walkName f)) 0 n with
    | some c, some m => some (([], c) :: m)
    | _, _ => none
  | .unsupported, _, _ => none
/-- The loop over the fields, sql/map.go:550-559: those that are not exported are passed over. -/
def walkFields : Fields → List (List Char) → Nat → Option Mirror
  | .nil, _, _ => some []
  | .cons f t rest, path, i =>
    if f.exported then
      match walk t path f, walkFields rest path (i + 1) with
      | some a, some b => some (underPos i a ++ b)
      | _, _ => none
    else walkFields rest path (i + 1)
end

/-- `mirror[ptr]`: the columns registered for a position (sql/sql.go:122). -/
def mirrorAt : Mirror → List Nat → Option (List Col)
  | [], _ => none
  | (q, c) :: m, p => if q = p then some c else mirrorAt m p

/-- The registry: for each table name and type the columns registered for the sentinel (`sentinals.index` or
`sentinals.value`, sql/map.go:509-518, together with `mirror`). A type stands for its `reflect.Type`. -/
abbrev Sentinels := List ((List Char × Nat) × Mirror)

/-- The lookup of a sentinel (`sentinals.index[…]`, sql/map.go:230, 277, 395, 425). -/
def sentinelOf : Sentinels → List Char × Nat → Option Mirror
  | [], _ => none
  | (k, m) :: s, k' => if k = k' then some m else sentinelOf s k'

/-- `sentinal.assert`, sql/map.go:514-531: the first registration of a table name and type stays. `rtype` identifies the
type `t`. -/
def assertSentinel (s : Sentinels) (table : List Char) (rtype : Nat) (t : Ty) (f : Meta) : Option Sentinels :=
  match sentinelOf s (table, rtype) with
  | some _ => some s
  | none => (walk t [] f).map fun m => ((table, rtype), m) :: s

/-- `key.Type.Kind() == reflect.Struct` (sql/map.go:41 and 48). -/
def Ty.isStruct : Ty → Bool
  | .struct _ => true
  | .scalar .time => true
  | _ => false

/-- The pseudo field `open` makes for the key or the value, sql/map.go:37-50: embedded if it is a struct. -/
def rootMeta (name : List Char) (t : Ty) : Meta := ⟨name, [], [], true, t.isStruct⟩

/-- A map opened on a database: the columns of its table and the columns its queries name (sql/map.go:30-61). -/
structure Opened where
  table : List Char
  index : List Col
  value : List Col
  deriving DecidableEq, Repr

/-- `strings.Cut(string(table), "/")` with the default `id`, sql/map.go:33-36. -/
def cutTable (table : List Char) : List Char × List Char :=
  match table.span (· != '/') with
  | (name, _ :: index) => (name, index)
  | (name, []) => (name, "id".toList)

/-- The two registries, of keys and of values (`sentinals`, sql/map.go:509-512). -/
structure Registry where
  index : Sentinels
  value : Sentinels

/-- A call of `open`: the `sql` tag of the map's field, and the types of its keys and values (sql/map.go:32, `K` and `V` by
number). -/
structure Open where
  tag : List Char
  kid : Nat
  vid : Nat
  deriving DecidableEq, Repr

/-- `(*Map[K, V]).open`, sql/map.go:32-61, `tyOf` being the types by number. `none` is a panic. -/
def openMap (tyOf : Nat → Ty) (r : Registry) (o : Open) : Option (Registry × Opened) :=
  match assertSentinel r.index (cutTable o.tag).1 o.kid (tyOf o.kid) (rootMeta (cutTable o.tag).2 (tyOf o.kid)),
      assertSentinel r.value (cutTable o.tag).1 o.vid (tyOf o.vid) (rootMeta "value".toList (tyOf o.vid)),
      columnsOf (tyOf o.kid) [] (rootMeta (cutTable o.tag).2 (tyOf o.kid)),
      columnsOf (tyOf o.vid) [] (rootMeta "value".toList (tyOf o.vid)) with
  | some i, some v, some ci, some cv => some (⟨i, v⟩, ⟨(cutTable o.tag).1, ci, cv⟩)
  | _, _, _, _ => none

/-- Every map that a program opens, one after another: the loop of `Open`, sql/map.go:89-94, over all calls of it. -/
def openAll (tyOf : Nat → Ty) : Registry → List Open → Option (Registry × List Opened)
  | r, [] => some (r, [])
  | r, o :: os =>
    match openMap tyOf r o with
    | none => none
    | some (r', m) =>
      match openAll tyOf r' os with
      | none => none
      | some (r'', ms) => some (r'', m :: ms)

/-- `OpenTable`, sql/map.go:100-108: the table is taken as given, and nothing is registered. -/
def openTable (r : Registry) (m : Opened) : Registry × Opened := (r, m)

/-- The pointers handed to a query function, as the columns registered for the parts of the records they point to
(sql/map.go:230-231, 277-278, 395-396, 425-426): `none` is the panic of a failed type assertion. -/
def pointers (r : Registry) (m : Opened) (kid vid : Nat) : Option (Mirror × Mirror) :=
  match sentinelOf r.index (m.table, kid), sentinelOf r.value (m.table, vid) with
  | some i, some v => some (i, v)
  | _, _ => none

end Verif.Sql
