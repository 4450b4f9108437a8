import Verif.Rest.MuxModel
/-!
# Reading an integer with `fmt.Sscanf` and `%v`

Models what `fmt.Sscanf(val, "%v", ref)` does for a pointer to an `int` of 64 bits
(`/repo/api/rest/host.go:809`): an optional sign, an optional base prefix, as many digits and
underscores as there are, and `strconv.ParseInt` of these with base 0. What follows is not
looked at. Texts that begin with white space are not modelled (they are refused here).
-/
namespace Verif.Rest

/-- The value of a digit in bases up to 16 (inside `Sscanf`, host.go:809). -/
def baseDigit (c : Char) : Option Nat :=
  if '0' ≤ c ∧ c ≤ '9' then some (c.toNat - 48)
  else if 'a' ≤ c ∧ c ≤ 'f' then some (c.toNat - 87)
  else if 'A' ≤ c ∧ c ≤ 'F' then some (c.toNat - 55)
  else none

/-- A character that `scanNumber` accepts in a base: a digit of the base or an underscore
(inside `Sscanf`, host.go:809). -/
def accepts (base : Nat) (c : Char) : Bool :=
  c == '_' || (match baseDigit c with | some d => d < base | none => false)

/-- The number a run of digits stands for; underscores are skipped (inside `Sscanf`, host.go:809). -/
def numberOf (base : Nat) (ds : Str) : Nat :=
  ds.foldl (fun n c => match baseDigit c with | some d => n * base + d | none => n) 0

/-- `underscoreOK` of strconv: an underscore only between digits, or after the prefix;
`prev` tells whether what comes before counts as a digit (inside `Sscanf`, host.go:809). -/
def underscoresOK : Bool → Str → Bool
  | prev, [] => prev
  | prev, c :: s => if c = '_' then prev && underscoresOK false s else underscoresOK true s

/-- `scanNumber` and `ParseInt` without the sign: after a prefix there must be digits (inside `Sscanf`, host.go:809). -/
def digitsOf (base : Nat) (prefixed needed : Bool) (s : Str) : Option Nat :=
  let ds := s.takeWhile (accepts base)
  if needed && ds.isEmpty then none
  else if underscoresOK prefixed ds then some (numberOf base ds) else none

/-- `scanBasePrefix` and what follows it: a leading 0 alone means octal (inside `Sscanf`, host.go:809). -/
def scanNat : Str → Option Nat
  | '0' :: s =>
    match s with
    | [] => some 0
    | c :: t =>
      if c = 'b' ∨ c = 'B' then digitsOf 2 true true t
      else if c = 'o' ∨ c = 'O' then digitsOf 8 true true t
      else if c = 'x' ∨ c = 'X' then digitsOf 16 true true t
      else digitsOf 8 true false (c :: t)
  | s => digitsOf 10 false true s

/-- `fmt.Sscanf(s, "%v", &i)` for an `int` (host.go:809); none is an error. -/
def scanInt (s : Str) : Option Int :=
  match s with
  | '-' :: s => (scanNat s).bind fun n => if n ≤ 2 ^ 63 then some (-(n : Int)) else none
  | '+' :: s => (scanNat s).bind fun n => if n < 2 ^ 63 then some (n : Int) else none
  | s => (scanNat s).bind fun n => if n < 2 ^ 63 then some (n : Int) else none

/-- `fmt.Sprintf("%v", i)` for an integer (link.go:89,146). -/
def printInt (i : Int) : Str :=
  if i < 0 then '-' :: Nat.toDigits 10 i.natAbs else Nat.toDigits 10 i.natAbs

end Verif.Rest
