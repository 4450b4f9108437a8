import Verif.Sql.WalkModel

/-
Model of the query builders of sql/sql.go when the pointers they are given point into a sentinel, that is, for a map backed
by a database: `Index`, `Where`, `Match`, `Empty`, `Avoid`, `Cases`, `Merge` and `Set`.

Simplifications, stated once: types and values are those of Verif/Sql/Flat.lean. A pointer is given by the columns `mirror`
has for it (`none`: the pointer is not into a sentinel, and the builder looks at what it points to instead). A Go panic is
`none`. The tags of columns are left out.
-/
namespace Verif.Sql

/-- A column value (`sodium.Value`, sql/std/sodium/sql.go:48-63). -/
abbrev Cell := Tag × Atom

/-- `sodium.WhereExpression`, sql/std/sodium/sql.go:193-199. -/
inductive WhereOp where
  | min | max | moreThan | lessThan
  deriving DecidableEq, Repr

/-- `sodium.MatchExpression`, sql/std/sodium/sql.go:204-208. -/
inductive MatchOp where
  | contains | hasPrefix | hasSuffix
  deriving DecidableEq, Repr

/-- `sodium.Expression`, sql/std/sodium/sql.go:221-232. -/
inductive SExpr where
  | value (b : Bool)
  | index (c : Col) (x : Cell)
  | wher (op : WhereOp) (c : Col) (x : Cell)
  | mtch (op : MatchOp) (c : Col) (s : List Nat)
  | order (dec : Bool) (c : Col)
  | range (lo hi : Int)
  | empty (c : Col)
  | avoid (e : SExpr)
  | cases (es : List SExpr)
  | group (es : List SExpr)

/-- The loop `for i, column := range columns` with `values[i]`, sql/sql.go:194-198 and 362-366: it panics if there are fewer
values than columns. -/
def pairUp {α : Type} (make : Col → Cell → α) : List Col → List Cell → Option (List α)
  | [], _ => some []
  | _ :: _, [] => none
  | c :: cs, x :: xs => (pairUp make cs xs).map fun l => make c x :: l

/-- `Index(ptr).Equals(val)`, sql/sql.go:181-206. `same` is `*ptr == val`. Without columns `columns[0]` panics (line 203). -/
def dbIndex (columns : Option (List Col)) (same : Bool) (t : Ty) (val : Val) : Option SExpr :=
  match columns with
  | none => some (.value same)
  | some [] => none
  | some (c :: cs) =>
    match valuesOf t val with
    | none => none
    | some xs => (pairUp .index (c :: cs) xs).map .group

/-- The conversion inside `Where`, sql/sql.go:384-413: the cases the type constraint allows. -/
def whereValue : Kind → Atom → Option Cell
  | .int8, a => (a.mapInt (toSigned 8)).map fun x => (.int8, x)
  | .int16, a => (a.mapInt (toSigned 16)).map fun x => (.int16, x)
  | .int32, a => (a.mapInt (toSigned 32)).map fun x => (.int32, x)
  | .int64, a => (a.mapInt (toSigned 64)).map fun x => (.int64, x)
  | .int, a => (a.mapInt (toSigned 64)).map fun x => (.int64, x)
  | .uint8, a => (a.mapInt (toUnsigned 8)).map fun x => (.uint8, x)
  | .uint16, a => (a.mapInt (toUnsigned 16)).map fun x => (.uint16, x)
  | .uint32, a => (a.mapInt (toUnsigned 32)).map fun x => (.uint32, x)
  | .uint64, a => (a.mapInt (toUnsigned 64)).map fun x => (.uint64, x)
  | .uint, a => (a.mapInt (toUnsigned 64)).map fun x => (.uint64, x)
  | .uintptr, a => (a.mapInt (toUnsigned 64)).map fun x => (.uint64, x)
  | .float32, .opaque b => some (.float32, .opaque b)
  | .float64, .opaque b => some (.float64, .opaque b)
  | _, _ => none

/-- `Where(ptr).Min(val)` and the like, sql/sql.go:374-446. `same` is the comparison of `*ptr` with `val`. -/
def dbWhere (columns : Option (List Col)) (same : Bool) (op : WhereOp) (k : Kind) (val : Atom) : Option SExpr :=
  match columns with
  | none => some (.value same)
  | some [] => none
  | some (c :: _) => (whereValue k val).map fun x => .wher op c x

/-- `Match(ptr).Contains(val)` and the like, sql/sql.go:451-490. `same` is the test of `*ptr`. -/
def dbMatch (columns : Option (List Col)) (same : Bool) (op : MatchOp) (val : List Nat) : Option SExpr :=
  match columns with
  | none => some (.value same)
  | some [] => none
  | some (c :: _) => some (.mtch op c val)

/-- `Empty(ptr)`, sql/sql.go:544-551: only the first column. `same` is `*ptr == zero`. -/
def dbEmpty (columns : Option (List Col)) (same : Bool) : Option SExpr :=
  match columns with
  | none => some (.value same)
  | some [] => none
  | some (c :: _) => some (.empty c)

/-- `Avoid`, sql/sql.go:555-560. -/
def dbAvoid : SExpr → SExpr
  | .value b => .value !b
  | e => .avoid e

/-- The loop of `Cases`, sql/sql.go:568-577. -/
def dbCasesLoop (all : List SExpr) : List SExpr → SExpr
  | [] => .value false
  | .value b :: es => if b then .value true else dbCasesLoop all es
  | _ :: _ => .cases all

/-- `Cases`, sql/sql.go:564-579. -/
def dbCases (es : List SExpr) : SExpr :=
  match es with
  | [] => .value true
  | _ => dbCasesLoop es es

/-- The loop of `Merge`, sql/sql.go:587-596. -/
def dbMergeLoop (all : List SExpr) : List SExpr → SExpr
  | [] => .value true
  | .value b :: es => if !b then .value false else dbMergeLoop all es
  | _ :: _ => .group all

/-- `Merge`, sql/sql.go:583-598. -/
def dbMerge (es : List SExpr) : SExpr :=
  match es with
  | [] => .value true
  | _ => dbMergeLoop es es

/-- `Set(ptr, val)` for a pointer into a sentinel, sql/sql.go:352-373: the columns set, and to what. -/
def dbSet (columns : List Col) (t : Ty) (val : Val) : Option (List (Col × Cell)) :=
  match columns with
  | [] => none
  | c :: cs =>
    match valuesOf t val with
    | none => none
    | some xs => pairUp (fun c x => (c, x)) (c :: cs) xs

end Verif.Sql
