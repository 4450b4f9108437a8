import Verif.Zgo.LitModel
import Mathlib.Data.Rat.Defs

/-!
# zgo literals: specification

How Go reads its literals (the Go language specification) and how Zig reads its own (the Zig language
reference and `std.zig.number_literal`, `std.zig.string_literal`).
-/
namespace Verif.Zgo.Lit.Spec
open Verif.Zgo.Lit

/-! ## Numbers -/

/-- The value of a digit, any base up to sixteen. -/
def digit (c : Char) : Option Nat :=
  let n := c.toNat
  if 48 ≤ n ∧ n ≤ 57 then some (n - 48)
  else if 97 ≤ n ∧ n ≤ 102 then some (n - 87)
  else if 65 ≤ n ∧ n ≤ 70 then some (n - 55)
  else none

/-- Digits of the base, single underscores between digits only. `after`: the last character was a digit. -/
def digits (b : Nat) : Nat → Bool → List Char → Option Nat
  | acc, after, [] => if after then some acc else none
  | acc, after, c :: cs =>
    if c = '_' then (if after then digits b acc false cs else none)
    else match digit c with
      | some d => if d < b then digits b (acc * b + d) true cs else none
      | none => none

/-- Go: after a base prefix one underscore may come first. -/
def goPrefixed (b : Nat) : List Char → Option Nat
  | '_' :: cs => digits b 0 false cs
  | cs => digits b 0 false cs

/-- The Go language specification, "Integer literals". -/
def goInt : List Char → Option Nat
  | ['0'] => some 0
  | '0' :: 'x' :: cs => goPrefixed 16 cs
  | '0' :: 'X' :: cs => goPrefixed 16 cs
  | '0' :: 'o' :: cs => goPrefixed 8 cs
  | '0' :: 'O' :: cs => goPrefixed 8 cs
  | '0' :: 'b' :: cs => goPrefixed 2 cs
  | '0' :: 'B' :: cs => goPrefixed 2 cs
  | '0' :: cs => goPrefixed 8 cs
  | cs => digits 10 0 false cs

/-- Zig: lower-case base prefixes, no underscore after them, no leading zero in a decimal number. -/
def zigInt : List Char → Option Nat
  | ['0'] => some 0
  | '0' :: 'x' :: cs => digits 16 0 false cs
  | '0' :: 'o' :: cs => digits 8 0 false cs
  | '0' :: 'b' :: cs => digits 2 0 false cs
  | '0' :: _ => none
  | cs => digits 10 0 false cs

/-- The Go literals whose base prefix is in capitals. -/
def capitalPrefix : List Char → Bool
  | '0' :: c :: _ => c == 'X' || c == 'O' || c == 'B'
  | _ => false

/-- The old-style octal literals with a second zero. -/
def doubleZero : List Char → Bool
  | '0' :: '0' :: _ => true
  | _ => false

/-! ## Decimal floating-point literals -/

/-- A decimal floating-point (or imaginary) literal without underscores: digits, perhaps a point and more
digits, perhaps an exponent (`e`, `E`; a sign or none; digits). -/
structure Decimal where
  whole : List (Fin 10)
  frac : Option (List (Fin 10))
  exp : Option (Bool × Option Bool × List (Fin 10))  -- capital, sign (true is minus), digits
  deriving DecidableEq

/-- A digit character. -/
def dch (d : Fin 10) : Char := Char.ofNat (48 + d.val)

/-- The point and the digits after it. -/
def fracText : Option (List (Fin 10)) → List Char
  | none => []
  | some ds => '.' :: ds.map dch

/-- The sign of an exponent. -/
def signText : Option Bool → List Char
  | none => []
  | some true => ['-']
  | some false => ['+']

/-- The exponent. -/
def expText : Option (Bool × Option Bool × List (Fin 10)) → List Char
  | none => []
  | some (cap, sign, ds) => (if cap then 'E' else 'e') :: (signText sign ++ ds.map dch)

/-- Its text. -/
def Decimal.text (f : Decimal) : List Char := f.whole.map dch ++ fracText f.frac ++ expText f.exp

/-- Go: a point or an exponent, at least one digit before or after the point, digits in the exponent. -/
def Decimal.goFloat (f : Decimal) : Prop :=
  (f.frac ≠ none ∨ f.exp ≠ none) ∧ (f.whole ≠ [] ∨ ∃ d ds, f.frac = some (d :: ds)) ∧
  (∀ cap sign ds, f.exp = some (cap, sign, ds) → ds ≠ [])

/-- Zig: at least one digit before the point, no leading zero unless it is the only digit there, something
after a final point, digits in the exponent. -/
def Decimal.zigNumber (f : Decimal) : Prop :=
  (f.whole ≠ [] ∧ (f.whole.head? = some 0 → f.whole = [0])) ∧
  (f.frac = some [] → f.exp ≠ none) ∧
  (∀ cap sign ds, f.exp = some (cap, sign, ds) → ds ≠ [])

/-- The number the digits stand for. -/
def dnat (ds : List (Fin 10)) : Nat := ds.foldl (fun a d => a * 10 + d.val) 0

/-- The exponent as a number. -/
def Decimal.exponent (f : Decimal) : Int :=
  match f.exp with
  | none => 0
  | some (_, some true, ds) => -(dnat ds : Int)
  | some (_, _, ds) => (dnat ds : Int)

/-- The number of digits after the point. -/
def Decimal.places (f : Decimal) : Int := (f.frac.getD []).length

/-- The value: all digits as one number, times ten to the exponent less the number of decimal places. -/
def Decimal.value (f : Decimal) : Rat :=
  (dnat (f.whole ++ f.frac.getD []) : Rat) * (10 : Rat) ^ (f.exponent - f.places)

/-! ## Zig string literals -/

/-- A hexadecimal digit of Zig source. -/
def hexValue (c : Nat) : Option Nat :=
  if 48 ≤ c ∧ c ≤ 57 then some (c - 48)
  else if 97 ≤ c ∧ c ≤ 102 then some (c - 87)
  else if 65 ≤ c ∧ c ≤ 70 then some (c - 55)
  else none

/-- `\u{…}`: hexadecimal digits up to the closing brace; the code point and the text after the brace. -/
def braced : Nat → List Nat → Option (Nat × List Nat)
  | _, [] => none
  | acc, c :: cs => if c = 125 then some (acc, cs) else
    match hexValue c with
    | some d => braced (acc * 16 + d) cs
    | none => none

/-- An escape sequence, after the backslash: the bytes it stands for and the text after it. `enc` is the
UTF-8 encoding of a code point. -/
def zigEscape (enc : Nat → List Nat) : List Nat → Option (List Nat × List Nat)
  | 110 :: rest => some ([10], rest)
  | 114 :: rest => some ([13], rest)
  | 116 :: rest => some ([9], rest)
  | 92 :: rest => some ([92], rest)
  | 34 :: rest => some ([34], rest)
  | 39 :: rest => some ([39], rest)
  | 120 :: h :: l :: rest =>
    match hexValue h, hexValue l with
    | some a, some b => some ([a * 16 + b], rest)
    | _, _ => none
  | 117 :: 123 :: rest =>
    match braced 0 rest with
    | some (r, rest') => some (enc r, rest')
    | none => none
  | _ => none

/-- Read the text after the opening quote up to the closing quote: the bytes of the string. The first
number bounds the number of characters read. -/
def zigString (enc : Nat → List Nat) : Nat → List Nat → Option (List Nat)
  | 0, _ => none
  | _, [] => none
  | n + 1, c :: cs =>
    if c = 34 then (if cs = [] then some [] else none)
    else if c = 92 then
      match zigEscape enc cs with
      | some (bs, rest) => (zigString enc n rest).map (bs ++ ·)
      | none => none
    else if c < 32 ∨ c = 127 then none
    else (zigString enc n cs).map (enc c ++ ·)

/-- The bytes of a Go string value. -/
def bytesOf (enc : Nat → List Nat) : List Piece → List Nat
  | [] => []
  | .rune r :: ps => enc r ++ bytesOf enc ps
  | .bad b :: ps => b :: bytesOf enc ps

/-- A Zig string literal. -/
def zigLiteral (enc : Nat → List Nat) : List Nat → Option (List Nat)
  | 34 :: cs => zigString enc (cs.length + 1) cs
  | _ => none

/-- What is known of `strconv.IsPrint` and UTF-8 for ASCII. -/
structure Ascii (isPrint : Nat → Bool) (enc : Nat → List Nat) : Prop where
  print : ∀ r, r < 128 → (isPrint r = true ↔ 32 ≤ r ∧ r ≠ 127)
  enc : ∀ r, r < 128 → enc r = [r]

/-- A piece of a string that is written in a form Zig reads: printable, or an escape both languages have,
or written as `\x…`. -/
def Readable (isPrint : Nat → Bool) : Piece → Prop
  | .bad b => b < 256
  | .rune r => isPrint r = true ∨ (r < 128 ∧ r ≠ 7 ∧ r ≠ 8 ∧ r ≠ 11 ∧ r ≠ 12)

end Verif.Zgo.Lit.Spec
