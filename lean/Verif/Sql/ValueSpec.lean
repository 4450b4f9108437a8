import Verif.Jrpc.Spec
import Verif.Sql.ValueModel
/-!
# What the text of a database value says (C234)

Uses RFC 4648's base64, digits and the numbers they denote of `Verif.Jrpc.Spec`, and the types of values of
`Verif.Sql.ValueModel`, none of its functions.
-/
namespace Verif.Sql.Value.Spec
open Verif.Jrpc (Digits digitsVal Base64)

/-- A decimal number without leading zeros. -/
def Decimal (i : Int) (s : Bytes) : Prop :=
  ∃ ds, Digits ds ∧ (ds.head? = some 48 → ds = [48]) ∧
    ((s = ds ∧ (digitsVal ds : Int) = i) ∨ (s = 45 :: ds ∧ -(digitsVal ds : Int) = i ∧ i ≠ 0))

/-- Exactly `w` digits that denote `n`. -/
def Field (w n : Nat) (s : Bytes) : Prop := s.length = w ∧ Digits s ∧ digitsVal s = n

/-- RFC 3339 `time-secfrac`, which may be left out if it is zero: in nanoseconds. -/
def Fraction (nano : Nat) (s : Bytes) : Prop :=
  (s = [] ∧ nano = 0) ∨ ∃ ds, s = 46 :: ds ∧ Digits ds ∧ ds.length ≤ 9 ∧ digitsVal ds * 10 ^ (9 - ds.length) = nano

/-- RFC 3339 `time-offset`: `Z`, or the hours and minutes ahead of or behind UTC. -/
def Zone (offset : Int) (s : Bytes) : Prop :=
  (s = [90] ∧ offset = 0) ∨
  ∃ sign hh mm h m, s = sign :: hh ++ 58 :: mm ∧ Field 2 h hh ∧ Field 2 m mm ∧ m < 60 ∧
    ((sign = 43 ∧ offset = h * 3600 + m * 60) ∨ (sign = 45 ∧ offset = -(h * 3600 + m * 60 : Int)))

/-- RFC 3339 `date-time`: `yyyy-mm-ddThh:mm:ss`, the fraction and the offset. -/
def Rfc3339 (t : Time) (s : Bytes) : Prop :=
  ∃ (y : Nat) (sy smo sd sh smi ss sf sz : Bytes),
    s = sy ++ 45 :: (smo ++ 45 :: (sd ++ 84 :: (sh ++ 58 :: (smi ++ 58 :: (ss ++ (sf ++ sz)))))) ∧
    Field 4 y sy ∧ (y : Int) = t.year ∧ Field 2 t.month smo ∧ Field 2 t.day sd ∧ Field 2 t.hour sh ∧ Field 2 t.minute smi ∧
    Field 2 t.second ss ∧ Fraction t.nano sf ∧ Zone t.offset sz

/-- The text says the value, given its type: a boolean, a decimal number, the string itself, base64, or a date and time. -/
inductive Says : Val → Bytes → Prop
  | true : Says (.bool true) [116, 114, 117, 101]
  | false : Says (.bool false) [102, 97, 108, 115, 101]
  | int (bits : Nat) (n : Int) (s : Bytes) (h : Decimal n s) : Says (.int bits n) s
  | uint (bits n : Nat) (s : Bytes) (h : Decimal n s) : Says (.uint bits n) s
  | string (s : Bytes) : Says (.string s) s
  | bytes (b s : Bytes) (h : Base64 s b) : Says (.bytes b) s
  | time (t : Time) (s : Bytes) (h : Rfc3339 t s) : Says (.time t) s

/-- The values are of the same case. -/
def SameType : Val → Val → Prop
  | .none, .none => True
  | .bool _, .bool _ => True
  | .int b _, .int b' _ => b = b'
  | .uint b _, .uint b' _ => b = b'
  | .float32 _, .float32 _ => True
  | .float64 _, .float64 _ => True
  | .string _, .string _ => True
  | .bytes _, .bytes _ => True
  | .time _, .time _ => True
  | _, _ => False

/-- The fields of a time are in their ranges. -/
def Valid (t : Time) : Prop :=
  1 ≤ t.month ∧ t.month ≤ 12 ∧ 1 ≤ t.day ∧ t.day ≤ 31 ∧ t.hour < 24 ∧ t.minute < 60 ∧ t.second < 60 ∧ t.nano < 10 ^ 9 ∧
    -86400 < t.offset ∧ t.offset < 86400

/-- A time that RFC 3339 has a text for: the year has four digits, and the offset is in whole minutes. -/
def Writable (t : Time) : Prop := Valid t ∧ 0 ≤ t.year ∧ t.year ≤ 9999 ∧ t.offset % 60 = 0

/-- The moment 0001-01-01T00:00:00Z, in any zone: on that day in zones ahead of UTC, on the day before in zones behind. -/
def FirstMoment (t : Time) : Prop :=
  t.nano = 0 ∧
  ((0 ≤ t.offset ∧ t.year = 1 ∧ t.month = 1 ∧ t.day = 1 ∧ (t.hour * 3600 + t.minute * 60 + t.second : Int) = t.offset) ∨
   (t.offset < 0 ∧ t.year = 0 ∧ t.month = 12 ∧ t.day = 31 ∧
     (t.hour * 3600 + t.minute * 60 + t.second : Int) = 86400 + t.offset))

/-- The value equals the zero value of its Go type, where byte strings that are empty and times that are the same moment count as
equal; for floats, both zeros. -/
def ZeroValue : Val → Prop
  | .none => False
  | .bool b => b = Bool.false
  | .int _ n => n = 0
  | .uint _ n => n = 0
  | .float32 b => b.toNat % 2 ^ 31 = 0
  | .float64 b => b.toNat % 2 ^ 63 = 0
  | .string s => s = []
  | .bytes b => b = []
  | .time t => FirstMoment t

end Verif.Sql.Value.Spec
