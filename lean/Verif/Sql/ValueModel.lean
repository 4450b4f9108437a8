import Verif.Jrpc.Model
/-!
# Model of the values of databases

Models `Value.String` and `Value.IsZero` (/repo/sql/std/sodium/sql.go:67-100, 102-135). A union of Go type `any` holds what was
stored (C107). `strconv.FormatInt`, `FormatUint` and `base64.StdEncoding` are those modelled for `jrpc`
(`Verif.Jrpc.Model`); `strconv.FormatFloat` is a parameter.
-/
namespace Verif.Sql.Value

/-- A byte string. -/
abbrev Bytes := List UInt8

/-- A `time.Time`: the date and time of day in its zone, and the seconds that the zone is ahead of UTC. -/
structure Time where
  /-- The year. -/
  year : Int
  /-- The month, from 1. -/
  month : Nat
  /-- The day, from 1. -/
  day : Nat
  /-- The hour. -/
  hour : Nat
  /-- The minute. -/
  minute : Nat
  /-- The second. -/
  second : Nat
  /-- The nanosecond. -/
  nano : Nat
  /-- Seconds east of UTC. -/
  offset : Int
deriving DecidableEq

/-- A database value (sql.go:46-61). The number of bits of integers and floats tells the case; floats are given by their bits. -/
inductive Val where
  /-- No case was stored. -/
  | none
  | bool (b : Bool)
  | int (bits : Nat) (n : Int)
  | uint (bits : Nat) (n : Nat)
  | float32 (bits : BitVec 32)
  | float64 (bits : BitVec 64)
  | string (s : Bytes)
  | bytes (b : Bytes)
  | time (t : Time)

/-- `appendInt` of Go's package time: at least `w` digits (called by `Format`, sql.go:95). -/
def appendPadded (x : Int) (w : Nat) : Bytes :=
  (if x < 0 then [45] else []) ++ List.replicate (w - (Jrpc.appendUint x.natAbs).length) 48 ++ Jrpc.appendUint x.natAbs

/-- The zone as `Format` writes it: the minutes of the offset, rounded towards zero (called at sql.go:95). -/
def formatZone (offset : Int) : Bytes :=
  if offset = 0 then [90]
  else (if offset.tdiv 60 < 0 then [45] else [43]) ++ appendPadded ((offset.tdiv 60).natAbs / 60 : Nat) 2 ++ [58] ++
    appendPadded ((offset.tdiv 60).natAbs % 60 : Nat) 2

/-- `Time.Format(time.RFC3339)` (called at sql.go:95): without the nanoseconds. -/
def formatTime (t : Time) : Bytes :=
  appendPadded t.year 4 ++ [45] ++ appendPadded t.month 2 ++ [45] ++ appendPadded t.day 2 ++ [84] ++ appendPadded t.hour 2 ++ [58] ++
    appendPadded t.minute 2 ++ [58] ++ appendPadded t.second 2 ++ formatZone t.offset

/-- `Value.String` (sql.go:67-100). -/
def render (f32 : BitVec 32 → Bytes) (f64 : BitVec 64 → Bytes) : Val → Bytes
  | .none => []
  | .bool true => [116, 114, 117, 101]
  | .bool false => [102, 97, 108, 115, 101]
  | .int _ n => Jrpc.appendInt n
  | .uint _ n => Jrpc.appendUint n
  | .float32 b => f32 b
  | .float64 b => f64 b
  | .string s => s
  | .bytes b => Jrpc.quanta b
  | .time t => formatTime t

/-- The days from 1 January of the year 1 to a date of the Gregorian calendar (Go's package time). -/
def daysTo (year : Int) (month day : Nat) : Int :=
  365 * (year - 1) + (year - 1).fdiv 4 - (year - 1).fdiv 100 + (year - 1).fdiv 400 +
    ((([0, 31, 59, 90, 120, 151, 181, 212, 243, 273, 304, 334][month - 1]?).getD 0 : Nat) : Int) +
    (if month > 2 ∧ year.fmod 4 = 0 ∧ (year.fmod 100 ≠ 0 ∨ year.fmod 400 = 0) then 1 else 0) + ((day : Int) - 1)

/-- `Time.sec`: the seconds since 1 January of the year 1 in UTC (called by `IsZero`, sql.go:131). -/
def Time.sec (t : Time) : Int :=
  daysTo t.year t.month t.day * 86400 + t.hour * 3600 + t.minute * 60 + t.second - t.offset

/-- `Value.IsZero` (sql.go:102-135); a float equals 0 whatever its sign. -/
def isZero : Val → Bool
  | .none => false
  | .bool b => b == false
  | .int _ n => n == 0
  | .uint _ n => n == 0
  | .float32 b => b == 0#32 || b == 0x80000000#32
  | .float64 b => b == 0#64 || b == 0x8000000000000000#64
  | .string s => s == []
  | .bytes b => b.length == 0
  | .time t => t.sec == 0 && t.nano == 0

end Verif.Sql.Value
