import Verif.Sql.DbMapModel

/-
Model of statistics: `Count` and `Sum` of sql/sql.go:208-347, `Output`, `Count` of sql/map.go:212-251, 316-322 and
sql/ram.go:74-86; and of what a driver makes of the values it scans: `NewResult`, `NewOutput`, `newPointerFor` of
sql/sql.go:825-925.

Simplifications, stated once: pointers are numbers, and the counters they point to numbers in a store. A panic is `none`.
-/
namespace Verif.Sql.Stat

/-- The types of counters, sql/sql.go:209-211. -/
inductive CKind where
  | int32 | int64 | uint32 | uint64
  deriving DecidableEq, Repr

/-- A number as a counter holds it (`atomic.Int32` and so on, sql/sql.go:209-211). -/
def CKind.wrap : CKind → Int → Int
  | .int32, z => toSigned 32 z
  | .int64, z => toSigned 64 z
  | .uint32, z => toUnsigned 32 z
  | .uint64, z => toUnsigned 64 z

/-- The function `edit` of `Count`, sql/sql.go:226-293: what is stored for the value a database reports. -/
def countEdit : CKind → Cell → Int
  | .int32, (.int8, .int z) => toSigned 32 z
  | .int32, (.int16, .int z) => toSigned 32 z
  | .int32, (.int32, .int z) => toSigned 32 z
  | .int32, (.int64, .int z) => if z > 4294967295 then -1 else toSigned 32 z
  | .int32, (.uint64, .int z) => if z > 2147483647 then -1 else toSigned 32 z
  | .int32, _ => -1
  | .int64, (.int8, .int z) => toSigned 64 z
  | .int64, (.int16, .int z) => toSigned 64 z
  | .int64, (.int32, .int z) => toSigned 64 z
  | .int64, (.int64, .int z) => z
  | .int64, (.uint64, .int z) => if z > 9223372036854775807 then -1 else toSigned 64 z
  | .int64, _ => -1
  | .uint32, (.uint8, .int z) => toUnsigned 32 z
  | .uint32, (.uint16, .int z) => toUnsigned 32 z
  | .uint32, (.uint32, .int z) => toUnsigned 32 z
  | .uint32, (.uint64, .int z) => if z > 4294967295 then 0 else toUnsigned 32 z
  | .uint32, _ => 0
  | .uint64, (.uint8, .int z) => toUnsigned 64 z
  | .uint64, (.uint16, .int z) => toUnsigned 64 z
  | .uint64, (.uint32, .int z) => toUnsigned 64 z
  | .uint64, (.uint64, .int z) => z
  | .uint64, _ => 0

/-- A statistic a `StatsFunc` returns: a count, or the sum of a field of the given kind (sql/sql.go:215, 328). -/
inductive Item where
  | count (k : CKind) (ptr : Nat)
  | sum (k : Kind) (field ptr : Nat)

/-- What the pointers point to (sql/sql.go:215, 328). -/
abbrev Store := Nat → Int

/-- A pointer assigned to. -/
def Store.set (s : Store) (p : Nat) (z : Int) : Store := fun q => if q = p then z else s q

/-- `Count(ptr)` itself, sql/sql.go:216-225: one is added, in memory and on a database. -/
def countCall (s : Store) (k : CKind) (p : Nat) : Store := s.set p (k.wrap (s p + 1))

/-- One call of the `StatsFunc` on a record in memory, sql/ram.go:82: `Sum` adds (sql/sql.go:331) and then panics, because
there is no column (line 337). -/
def memCall : List Item → Store → Option Store
  | [], s => some s
  | .count k p :: is, s => memCall is (countCall s k p)
  | .sum _ _ _ :: _, _ => none

/-- `(*ram).Output`, sql/ram.go:74-86: the `StatsFunc` is called for every record that matches; `n` is their number. -/
def memOutput (is : List Item) : Nat → Store → Option Store
  | 0, s => some s
  | n + 1, s => (memCall is s).bind (memOutput is n)

/-- The call of the `StatsFunc` with pointers into the sentinels, sql/map.go:224: `Count` adds one all the same, `Sum` finds
its column. -/
def dbCall : List Item → Store → Store
  | [], s => s
  | .count k p :: is, s => dbCall is (countCall s k p)
  | .sum _ _ _ :: is, s => dbCall is s

/-- `stat.update(output[i])`, sql/map.go:245-247: `Count` stores, `Sum` decodes (sql/sql.go:334-336), which panics if the
value is of another type than the field; `output[i]` panics if there are too few values. -/
def dbUpdate : List Item → List Cell → Store → Option Store
  | [], _, s => some s
  | _ :: _, [], _ => none
  | .count k p :: is, c :: cs, s => dbUpdate is cs (s.set p (countEdit k c))
  | .sum k _ p :: is, c :: cs, s =>
    match decodeScalar k [c] with
    | some (.scalar (.int z), _) => dbUpdate is cs (s.set p z)
    | _ => none

/-- `(*Map).Output` on a database, sql/map.go:212-251: `none` as a report is an error of the database. The result says
whether there was one. -/
def dbOutput (is : List Item) (report : Option (List Cell)) (s : Store) : Option (Store × Bool) :=
  match report with
  | none => some (dbCall is s, true)
  | some cs => (dbUpdate is cs (dbCall is s)).map fun s' => (s', false)

/-- `(*Map).Count` on a database, sql/map.go:316-322: an `atomic.Int64` that starts at zero, as an `int`. -/
def mapCountDb (report : Option (List Cell)) : Option (Int × Bool) :=
  (dbOutput [.count .int64 0] report fun _ => 0).map fun r => (r.1 0, r.2)

/-! ### Drivers -/

/-- `newPointerFor`, sql/sql.go:892-925: the type a column is scanned into. -/
def newPointerFor : Tag → Kind
  | .bool => .bool | .int8 => .int8 | .int16 => .int16 | .int32 => .int32 | .int64 => .int64
  | .uint8 => .uint8 | .uint16 => .uint16 | .uint32 => .uint32 | .uint64 => .uint64
  | .float32 => .float32 | .float64 => .float64 | .string => .string | .bytes => .bytes | .time => .time

/-- The loop over the pointers, sql/sql.go:838-841 and 884-887: `ValuesOf` follows a pointer. -/
def readBack : List Kind → List Atom → Option (List Cell)
  | [], _ => some []
  | _ :: _, [] => none
  | k :: ks, a :: as =>
    match valuesOf (.scalar k) (.scalar a), readBack ks as with
    | some x, some xs => some (x ++ xs)
    | _, _ => none

/-- `NewResult`, sql/sql.go:825-843: `scan` puts a value behind every pointer, or fails. The outer `none` is a panic, the
inner one the scanner's error. -/
def newResult (index value : List Col) (scan : List Kind → Option (List Atom)) : Option (Option (List Cell)) :=
  match scan (index.map (fun c => newPointerFor c.2) ++ value.map fun c => newPointerFor c.2) with
  | none => some none
  | some as => (readBack (index.map (fun c => newPointerFor c.2) ++ value.map fun c => newPointerFor c.2) as).map some

/-- A calculation, sql/std/sodium/sql.go:250-257. -/
inductive Calc where
  | add
  | sum (c : Col) | avg (c : Col) | top (c : Col) | min (c : Col) | max (c : Col)

/-- The pointer `NewOutput` makes for a calculation, sql/sql.go:849-876. -/
def calcPointer : Calc → Kind
  | .add => .uint64
  | .sum c => newPointerFor c.2
  | .avg c => newPointerFor c.2
  | .max c => newPointerFor c.2
  | .min c => newPointerFor c.2
  | .top c => newPointerFor c.2

/-- `NewOutput`, sql/sql.go:847-889. -/
def newOutput (calcs : List Calc) (scan : List Kind → Option (List Atom)) : Option (Option (List Cell)) :=
  match scan (calcs.map calcPointer) with
  | none => some none
  | some as => (readBack (calcs.map calcPointer) as).map some

/-- `counter.calculation`, sql/sql.go:294, 337; `col` is the column of the field (map.go:229-232). -/
def calculation (col : Nat → Col) : Item → Calc
  | .count _ _ => .add
  | .sum _ f _ => .sum (col f)

end Verif.Sql.Stat
