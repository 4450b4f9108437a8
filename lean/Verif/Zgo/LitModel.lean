/-!
# zgo literals: model

`Literal` (`zgo/internal/target/zigc/constants.go:12-66`), which writes a Go literal as Zig source.
-/
namespace Verif.Zgo.Lit

/-- `constants.go:64` `strings.ReplaceAll(value, "_", "")`. -/
def dropUnderscores : List Char → List Char
  | [] => []
  | c :: cs => if c = '_' then dropUnderscores cs else c :: dropUnderscores cs

/-- `constants.go:17` `strings.TrimPrefix(value, "_")`. -/
def trimUnderscore : List Char → List Char
  | '_' :: cs => cs
  | cs => cs

/-- `constants.go:14`: the test for an octal literal in the old style, on the second character. -/
def oldOctal (c : Char) : Bool := ('0' < c && c < '9') || c == '_'

/-- `constants.go:13-20`, `:64`: an integer literal. -/
def emitInt : List Char → List Char
  | '0' :: c :: rest =>
    if oldOctal c then '0' :: 'o' :: trimUnderscore (c :: rest)
    else dropUnderscores ('0' :: c :: rest)
  | v => dropUnderscores v

/-- `constants.go:45-53`: a rune literal is written as the number `strconv.UnquoteChar` returns for it;
`fmt`'s `%d` in decimal. -/
def emitDecimal (n : Nat) : List Char :=
  if n < 10 then [Char.ofNat (48 + n)] else emitDecimal (n / 10) ++ [Char.ofNat (48 + n % 10)]

/-- `constants.go:29` `strings.TrimLeft(value, "0")`. -/
def trimZeros : List Char → List Char
  | '0' :: cs => trimZeros cs
  | cs => cs

/-- `constants.go:22` `strings.TrimSuffix(value, "i")`. -/
def trimI (v : List Char) : List Char := if v.getLast? = some 'i' then v.dropLast else v

/-- `constants.go:34-36`: no leading decimal point. -/
def leadingZero (v : List Char) : List Char := if v.head? = some '.' then '0' :: v else v

/-- `constants.go:37-39`: no trailing decimal point. -/
def trailingZero (v : List Char) : List Char := if v.getLast? = some '.' then v ++ ['0'] else v

/-- `constants.go:21-40`: a floating-point or imaginary literal of more than one character. `none` is a
panic of the compiler: the code indexes `value[1]` (`:28`) and `value[0]` (`:34`) without checking the
length again after it shortened the value. -/
def adjustFloat (v : List Char) : Option (List Char) :=
  if v.length ≤ 1 then some v
  else
    let v := trimI v
    let v := if v = ['0'] then ['0', '.', '0'] else v
    match v[1]? with
    | none => none
    | some c =>
      let v := if c ≠ 'x' ∧ c ≠ 'o' then trimZeros v else v
      let v := if v = ['.'] then ['0', '.', '0'] else v
      match v with
      | [] => none
      | v => some (trailingZero (leadingZero v))

/-- `constants.go:64`: a floating-point literal. -/
def emitFloat (v : List Char) : Option (List Char) := (adjustFloat v).map dropUnderscores

/-- `constants.go:41-44`: the imaginary part written inside `go.complex128.init(0,…)`. -/
def emitImaginary (v : List Char) : Option (List Char) := adjustFloat v

/-! ## Strings -/

/-- What ranging over a Go string finds: a rune, or a byte that is not part of valid UTF-8 (`strconv.Quote`,
used by `%q`, `constants.go:61`). -/
inductive Piece
  | rune (r : Nat)
  | bad (b : Nat)
  deriving DecidableEq, Repr

/-- A lower-case hexadecimal digit, as a code point (for `%q`, `constants.go:61`). -/
def hexDigit (n : Nat) : Nat := if n < 10 then 48 + n else 87 + n

/-- `k` hexadecimal digits of `n`, most significant first (for `%q`, `constants.go:61`). -/
def hexDigits : Nat → Nat → List Nat
  | 0, _ => []
  | k + 1, n => hexDigits k (n / 16) ++ [hexDigit (n % 16)]

/-- `strconv`'s `appendEscapedRune` (Go's library, as used by `%q`, `constants.go:61`), for the quote `"`.
`isPrint` is `strconv.IsPrint`. Text is a list of code points. -/
def quotePiece (isPrint : Nat → Bool) : Piece → List Nat
  | .bad b => [92, 120] ++ hexDigits 2 b
  | .rune r =>
    if r = 34 ∨ r = 92 then [92, r]
    else if isPrint r then [r]
    else if r = 7 then [92, 97]
    else if r = 8 then [92, 98]
    else if r = 12 then [92, 102]
    else if r = 10 then [92, 110]
    else if r = 13 then [92, 114]
    else if r = 9 then [92, 116]
    else if r = 11 then [92, 118]
    else if r < 32 ∨ r = 127 then [92, 120] ++ hexDigits 2 r
    else if r < 65536 then [92, 117] ++ hexDigits 4 r
    else [92, 85] ++ hexDigits 8 r

/-- The pieces between the quotes (`%q`, `constants.go:61`). -/
def quoteBody (isPrint : Nat → Bool) : List Piece → List Nat
  | [] => []
  | p :: ps => quotePiece isPrint p ++ quoteBody isPrint ps

/-- `constants.go:54-63`: a string literal is unquoted and written with `%q`. -/
def emitString (isPrint : Nat → Bool) (val : List Piece) : List Nat := 34 :: (quoteBody isPrint val ++ [34])

end Verif.Zgo.Lit
