/-! # Model of the parser of call tags

`api/call/internal/ffi/tag.go`: `ParseTag`, `parseType`, `argument`, on top of the tokens of
`text/scanner` (in the mode `scanner.GoTokens`, the default of `Scanner.Init`).

Simplifications: letters are those of ASCII (the Go scanner also takes the letters and digits of
Unicode); the positions within error messages are not kept; a byte order mark is an ordinary
character. -/

namespace Verif.Call

/-! ## The scanner -/

/-- Tokens of `text/scanner` as far as the parser tells them apart: identifiers, integers, the end of
the text, single characters, and all other literals (floats, strings, characters), which the parser
accepts nowhere (what `Scan` returns at `tag.go:114-152`, `:164-191`). -/
inductive Tok where
  | ident (s : List Char)
  | int (s : List Char)
  | ch (c : Char)
  | eof
  | other
deriving DecidableEq, Repr

/-- `scanner.GoWhitespace` (`text/scanner`, initialised at `tag.go:103`). -/
def isSpace (c : Char) : Bool := c == ' ' || c == '\t' || c == '\n' || c == '\r'

/-- `Scanner.isIdentRune(ch, 0)` for ASCII (`text/scanner`, initialised at `tag.go:103`). -/
def isFirst (c : Char) : Bool := c == '_' || c.isAlpha

/-- `Scanner.isIdentRune(ch, i)` for `i > 0` and ASCII (`text/scanner`, initialised at `tag.go:103`). -/
def isIdent (c : Char) : Bool := c == '_' || c.isAlpha || c.isDigit

/-- What is being skipped before a token (`text/scanner`, initialised at `tag.go:103`). -/
inductive Skip where
  | space | line | block

/-- White space and comments before a token (`Scan` with `SkipComments`: a `//` comment ends before its
newline, a block comment at its end) (`text/scanner`, used at `tag.go:114`, `:164`, …). -/
def skip : Skip → List Char → List Char
  | .space, '/' :: '/' :: r => skip .line r
  | .space, '/' :: '*' :: r => skip .block r
  | .space, c :: r => if isSpace c then skip .space r else c :: r
  | .line, c :: r => if c = '\n' then skip .space r else skip .line r
  | .block, '*' :: '/' :: r => skip .space r
  | .block, _ :: r => skip .block r
  | _, [] => []

/-- `isDecimal(ch) || ch == '_'`, as in `Scanner.digits` for a base up to ten
(`text/scanner`, initialised at `tag.go:103`). -/
def isDig (c : Char) : Bool := c.isDigit || c == '_'

/-- `isHex(ch) || ch == '_'`, as in `Scanner.digits` for base sixteen (`text/scanner`, initialised at `tag.go:103`). -/
def isHex (c : Char) : Bool :=
  c.isDigit || c == '_' || ('a' ≤ c && c ≤ 'f') || ('A' ≤ c && c ≤ 'F')

/-- The integer part of a literal in `Scanner.scanNumber`: prefix and digits
(the `scanner.Int` of `tag.go:118`, `:136`). -/
def intPart : List Char → List Char × List Char
  | '0' :: c :: r =>
    if c = 'x' ∨ c = 'X' then ('0' :: c :: r.takeWhile isHex, r.dropWhile isHex)
    else if c = 'o' ∨ c = 'O' ∨ c = 'b' ∨ c = 'B' then
      ('0' :: c :: r.takeWhile isDig, r.dropWhile isDig)
    else (('0' :: c :: r).takeWhile isDig, ('0' :: c :: r).dropWhile isDig)
  | cs => (cs.takeWhile isDig, cs.dropWhile isDig)

/-- The exponent of a literal in `Scanner.scanNumber`: `none` if there is none
(what makes a literal no `scanner.Int`, `tag.go:118`, `:136`). -/
def exponent : List Char → Option (List Char)
  | c :: r =>
    if c = 'e' ∨ c = 'E' ∨ c = 'p' ∨ c = 'P' then
      match r with
      | '+' :: r => some (r.dropWhile isDig)
      | '-' :: r => some (r.dropWhile isDig)
      | r => some (r.dropWhile isDig)
    else none
  | [] => none

/-- The fraction and exponent that follow an integer part: `none` if there are neither. A fraction of a
hexadecimal literal is taken to end where its decimal digits end; it is no integer either way
(what makes a literal no `scanner.Int`, `tag.go:118`, `:136`). -/
def afterInt : List Char → Option (List Char)
  | '.' :: r => some (((exponent (r.dropWhile isDig))).getD (r.dropWhile isDig))
  | r => exponent r

/-- `Scanner.scanNumber` without a leading dot (the `scanner.Int` of `tag.go:118`, `:136`). -/
def number (cs : List Char) : Tok × List Char :=
  match afterInt (intPart cs).2 with
  | some r => (.other, r)
  | none => (.int (intPart cs).1, (intPart cs).2)

/-- `Scanner.Scan` once white space has been skipped. Strings, characters and raw strings are no token
the parser takes, so where they end does not matter; here they take up the rest
(`scan.Scan()` at `tag.go:114`, `:117`, `:164`, `:190`, …). -/
def token : List Char → Tok × List Char
  | [] => (.eof, [])
  | c :: r =>
    if isFirst c then (.ident (c :: r.takeWhile isIdent), r.dropWhile isIdent)
    else if c.isDigit then number (c :: r)
    else if c = '"' ∨ c = '\'' ∨ c = '`' then (.other, [])
    else if c = '.' ∧ (r.headD ' ').isDigit then (.other, r.dropWhile isDig)
    else (.ch c, r)

/-- `Scanner.Scan` (`scan.Scan()` at `tag.go:114`, `:117`, `:164`, `:190`, …). -/
def scan (cs : List Char) : Tok × List Char := token (skip .space cs)

/-- `Scanner.Peek`: the next character, whatever it is; `none` for `scanner.EOF`
(`scan.Peek()` at `tag.go:186`, `:210`, `:229`, `:296`, …). -/
def peek (cs : List Char) : Option Char := cs.head?

/-! ## Types -/

/-- `Argument` (tag.go:87-93), but for `Check`, which is whether there is one. -/
inductive Argument where
  /-- `Index`: `@n` -/
  | index (n : Nat)
  /-- `Const`: a name -/
  | const (s : List Char)
  /-- `Value`: a number -/
  | value (n : Nat)
deriving DecidableEq, Repr

/-- `Assertions` (tag.go:72-84). -/
structure Assertions where
  capacity : Bool := false
  inverted : Bool := false
  indirect : Nat := 0
  lifetime : Option Argument := none
  overlaps : Option Argument := none
  sameType : Option Argument := none
  equality : Option Argument := none
  moreThan : Option Argument := none
  lessThan : Option Argument := none
  ofFormat : Option Argument := none
deriving DecidableEq, Repr

/-- `Call` (tag.go:64-70). -/
structure Call where
  name : List Char := []
  args : List Argument := []
deriving DecidableEq, Repr

/-- The fields of `Type` (tag.go:47-61) that hold no types. -/
structure Head where
  name : List Char := []
  hash : Bool := false
  free : Option Char := none
  test : Assertions := {}
  call : Call := {}
  more : Bool := false
  maps : Nat := 0
deriving DecidableEq, Repr

mutual
/-- `Type` (tag.go:47-61): its plain fields, `Func` and `Args`. -/
inductive T where
  | mk (h : Head) (func : TOpt) (args : Ts)
deriving DecidableEq, Repr
/-- `*Type` (`tag.go:53`). -/
inductive TOpt where
  | none
  | some (t : T)
deriving DecidableEq, Repr
/-- `[]Type` (`tag.go:54`). -/
inductive Ts where
  | nil
  | cons (t : T) (ts : Ts)
deriving DecidableEq, Repr
end

/-- `append` (`tag.go:227`). -/
def Ts.snoc : Ts → T → Ts
  | .nil, t => .cons t .nil
  | .cons a ts, t => .cons a (ts.snoc t)

/-- `len` (`tag.go:226`). -/
def Ts.len : Ts → Nat
  | .nil => 0
  | .cons _ ts => ts.len + 1

/-- The plain fields of a type (`tag.go:51-62`). -/
def T.head : T → Head
  | .mk h _ _ => h

/-- `arg.Maps = n` (`tag.go:226`). -/
def T.withMaps : T → Nat → T
  | .mk h f a, n => .mk { h with maps := n } f a

/-- How a call of the parser ends; `out` stands for the model running out of fuel, which is shown never
to happen (the results of `tag.go:111`, `:156`). -/
inductive Res (α : Type) where
  | ok (a : α)
  | err
  | out
deriving DecidableEq, Repr

/-- `if err != nil { return err }` (`tag.go:223-225`, `:279-281`, `:326-328`). -/
def Res.andThen {α β : Type} : Res α → (α → Res β) → Res β
  | .ok a, f => f a
  | .err, _ => .err
  | .out, _ => .out

/-! ## The parser -/

/-- The value of decimal digits (`tag.go:125`, `:137`). -/
def decimal (cs : List Char) : Nat := cs.foldl (fun n c => n * 10 + (c.toNat - '0'.toNat)) 0

/-- `strconv.ParseInt(text, 10, bits)` of a token without a sign: decimal digits only (no prefix, no
underscores), within range (`tag.go:125`, `:137`). -/
def parseInt (bits : Nat) (cs : List Char) : Option Nat :=
  if cs.all Char.isDigit ∧ decimal cs < 2 ^ (bits - 1) then some (decimal cs) else none

/-- `argument`, tag.go:111-153. -/
def argument (cs : List Char) : Res (Argument × List Char) :=
  match scan cs with
  | (.ch '@', r) =>
    match scan r with
    | (.int s, r) =>
      match parseInt 8 s with
      | some n => .ok (.index n, r)
      | none => .err
    | _ => .err
  | (.ident s, r) => .ok (.const s, r)
  | (.int s, r) =>
    match parseInt 64 s with
    | some n => .ok (.value n, r)
    | none => .err
  | _ => .err

/-- The part of `parseType` that reads ownership, immutability and name: tag.go:162-201. -/
def parseHead (cs : List Char) : Res (Head × List Char) :=
  match scan cs with
  | (.ident s, r) => .ok ({ name := s }, r)
  | (.ch c, r) =>
    if c = '$' ∨ c = '&' ∨ c = '*' ∨ c = '~' ∨ c = '+' ∨ c = '-' then
      if peek r = some '#' then
        match scan (scan r).2 with
        | (.ident s, r) => .ok ({ name := s, hash := true, free := some c }, r)
        | _ => .err
      else
        match scan r with
        | (.ident s, r) => .ok ({ name := s, free := some c }, r)
        | _ => .err
    else if c = '#' then
      match scan r with
      | (.ident s, r) => .ok ({ name := s, hash := true }, r)
      | _ => .err
    else .err
  | _ => .err

/-- The loop over the arguments of the failure symbol: tag.go:263-290. -/
def callArgs : Nat → List Argument → List Char → Res (List Argument × List Char)
  | 0, _, _ => .out
  | f + 1, acc, cs =>
    if peek cs = some ')' then .ok (acc, (scan cs).2)
    else if peek cs = none then .err
    else (argument cs).andThen fun (a, r) =>
      if peek r = some ',' then callArgs f (acc ++ [a]) (scan r).2
      else if peek r = some ')' then callArgs f (acc ++ [a]) r
      else .err

/-- The failure symbol after a semicolon: tag.go:245-291. -/
def failure (f : Nat) (cs : List Char) : Res (Call × List Char) :=
  if peek cs = some ';' then
    match scan (scan cs).2 with
    | (.ident s, r) =>
      match scan r with
      | (.ch '(', r) => (callArgs f [] r).andThen fun (as, r) => .ok ({ name := s, args := as }, r)
      | _ => .err
    | _ => .err
  else .ok ({}, cs)

/-- `for scan.Peek() == '*'`: tag.go:299-303. -/
def stars : List Char → Nat × List Char
  | '*' :: r => ((stars r).1 + 1, (stars r).2)
  | cs => (0, cs)

/-- Three dots: tag.go:304-313. -/
def dots (cs : List Char) : Option (List Char) :=
  match scan cs with
  | (.ch '.', r) =>
    match scan r with
    | (.ch '.', r) =>
      match scan r with
      | (.ch '.', r) => some r
      | _ => none
    | _ => none
  | _ => none

/-- The inverting mark: tag.go:315-318. -/
def inverted (cs : List Char) : Bool × List Char :=
  if peek cs = some '!' then (true, (scan cs).2) else (false, cs)

/-- The assertion proper, with its argument read before the switch: tag.go:319-356. -/
def assertion (a : Assertions) (cs : List Char) : Res (Assertions × List Char) :=
  (argument (scan cs).2).andThen fun (g, r) =>
    match (scan cs).1 with
    | .ch '>' =>
      if peek r = some '=' then .ok ({ a with equality := some g, moreThan := some g }, (scan r).2)
      else .ok ({ a with moreThan := some g }, r)
    | .ch '<' =>
      if peek r = some '=' then .ok ({ a with equality := some g, lessThan := some g }, (scan r).2)
      else .ok ({ a with lessThan := some g }, r)
    | .ch '=' => .ok ({ a with equality := some g }, r)
    | .ch ':' => .ok ({ a with sameType := some g }, r)
    | .ch '~' => .ok ({ a with inverted := !a.inverted, overlaps := some g }, r)
    | .ch '^' => .ok ({ a with lifetime := some g }, r)
    | .ch '?' => .ok ({ a with ofFormat := some g }, r)
    | _ => .err

/-- The closing bracket of a capacity: tag.go:357-363. -/
def closing (a : Assertions) (cs : List Char) : Res (List Char) :=
  if a.capacity then
    match scan cs with
    | (.ch ']', r) => .ok r
    | _ => .err
  else .ok cs

/-- An assertion with its mark of inversion and closing bracket: tag.go:315-364. -/
def inverting (h : Head) (cs : List Char) : Res (Head × List Char) :=
  (assertion { h.test with inverted := (inverted cs).1 } (inverted cs).2).andThen fun (a, r) =>
    (closing a r).andThen fun r => .ok ({ h with test := a }, r)

/-- The end of `parseType`: tag.go:293-365. -/
def assertions (h : Head) (cs : List Char) : Res (Head × List Char) :=
  match peek cs with
  | none => .ok (h, cs)
  | some c =>
    if c = ',' ∨ c = ')' then .ok (h, cs)
    else if c = '[' then inverting { h with test := { h.test with capacity := true } } (scan cs).2
    else if c = '*' then
      inverting { h with test := { h.test with indirect := (stars cs).1 } } (stars cs).2
    else if c = '.' then
      match dots cs with
      | some r => inverting { h with more := true } r
      | none => .err
    else inverting h cs

mutual
/-- `parseType`, tag.go:156-366. -/
def parseType : Nat → List Char → Res (T × List Char)
  | 0, _ => .out
  | f + 1, cs =>
    (parseHead cs).andThen fun (h, r) =>
      if h.name = "func".toList then
        match scan r with
        | (.ch '(', r) =>
          (parseArgs f .nil r).andThen fun (as, r) =>
            (parseRet f r).andThen fun (ret, r) =>
              (failure f r).andThen fun (c, r) =>
                (assertions { h with call := c } r).andThen fun (h, r) => .ok (.mk h ret as, r)
        | _ => .err
      else (assertions h r).andThen fun (h, r) => .ok (.mk h .none .nil, r)
/-- The loop over the arguments of a function: tag.go:211-237. -/
def parseArgs : Nat → Ts → List Char → Res (Ts × List Char)
  | 0, _, _ => .out
  | f + 1, acc, cs =>
    if peek cs = some ')' then .ok (acc, (scan cs).2)
    else if peek cs = none then .err
    else (parseType f cs).andThen fun (t, r) =>
      if peek r = some ',' then parseArgs f (acc.snoc (t.withMaps (acc.len + 1))) (scan r).2
      else if peek r = some ')' then parseArgs f (acc.snoc (t.withMaps (acc.len + 1))) r
      else .err
/-- The result of a function, if one follows: tag.go:238-244. -/
def parseRet : Nat → List Char → Res (TOpt × List Char)
  | 0, _ => .out
  | f + 1, cs =>
    if peek cs = none ∨ peek cs = some ',' ∨ peek cs = some ')' then .ok (.none, cs)
    else (parseType f cs).andThen fun (t, r) => .ok (.some t, r)
end

/-- `strings.Cut(s, " ")` (`tag.go:98`). -/
def cutSpace : List Char → Option (List Char × List Char)
  | [] => none
  | c :: r => if c = ' ' then some ([], r) else (cutSpace r).map fun (a, b) => (c :: a, b)

/-- `strings.Split(s, ",")` (`tag.go:108`). -/
def splitComma : List Char → List (List Char)
  | [] => [[]]
  | c :: r =>
    if c = ',' then [] :: splitComma r
    else match splitComma r with
      | [] => [[c]]
      | w :: ws => (c :: w) :: ws

/-- `ParseTag`, tag.go:97-109. What follows the type in the text is not looked at. -/
def parseTag (tag : List Char) : Res (List (List Char) × T) :=
  match cutSpace tag with
  | none => .err
  | some (symbols, stype) =>
    (parseType (2 * stype.length + 3) stype).andThen fun (t, _) => .ok (splitComma symbols, t)

end Verif.Call
