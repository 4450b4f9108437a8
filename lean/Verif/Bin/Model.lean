/-!
# Binary formats: model

The functions of a binary format write their arguments as their `bin` tag says: `link`
(`api/call/internal/bin/bin.go:55-207`). A result of `none` is a Go panic. Bit counts are numbers where Go has
`uint8`; tags are shorter than that.
-/
namespace Verif.Bin

/-- Tags (`bin.go:57`). -/
abbrev Str := List Char

/-- An argument, by the kind reflection sees (`args`, `bin.go:58`). -/
inductive Arg
  | uint (n : Nat)
  | int (i : Int)
  deriving DecidableEq

/-- `reflect.Value.Uint` panics for signed integers (`bin.go:98`, `:179`). -/
def Arg.get : Arg → Option Nat
  | .uint n => some n
  | .int _ => none

/-- `args[name-'a'].Uint()` (`bin.go:98`, `:179`). -/
def argOf (args : List Arg) (name : Char) : Option Nat :=
  match args[name.toNat - 'a'.toNat]? with
  | some a => a.get
  | none => none

/-- `strings.Split(tag, " ")` (`bin.go:63`). -/
def words : Str → List Str
  | [] => [[]]
  | c :: s =>
    if c = ' ' then [] :: words s
    else
      match words s with
      | [] => [[c]]
      | w :: ws => (c :: w) :: ws

/-- The value of a hexadecimal digit (`bin.go:71`). -/
def hexDigit (c : Char) : Option Nat :=
  if '0' ≤ c ∧ c ≤ '9' then some (c.toNat - '0'.toNat)
  else if 'a' ≤ c ∧ c ≤ 'f' then some (c.toNat - 'a'.toNat + 10)
  else if 'A' ≤ c ∧ c ≤ 'F' then some (c.toNat - 'A'.toNat + 10)
  else none

/-- `strconv.ParseUint(s, 16, 8)` of digits, after the ones before (`bin.go:71`). -/
def hexFrom (acc : Nat) : Str → Option Nat
  | [] => if acc < 256 then some acc else none
  | c :: s =>
    match hexDigit c with
    | some d => hexFrom (16 * acc + d) s
    | none => none

/-- `strconv.ParseUint(s, 16, 8)` (`bin.go:71`). -/
def parseHex : Str → Option Nat
  | [] => none
  | c :: s => hexFrom 0 (c :: s)

/-- `strconv.ParseUint(s, 10, 64)` of digits, after the ones before (`bin.go:112`). -/
def decFrom (acc : Nat) : Str → Option Nat
  | [] => if acc < 2 ^ 64 then some acc else none
  | c :: s => if '0' ≤ c ∧ c ≤ '9' then decFrom (10 * acc + (c.toNat - '0'.toNat)) s else none

/-- The variables of the loops (`bin.go:59-88`): the name and the bits survive from word to word; `out` are the bits
written to the current byte, `n` is 7 less their number; `check` is the text from the first digit on. -/
structure St where
  name : Option Char
  bits : Nat
  sub : Bool
  check : Option Str
  more : Bool
  less : Bool
  same : Bool
  out : List Bool

/-- The bits of a number, the most significant first (`bin.go:104-110`). -/
def topBits : Nat → Nat → List Bool
  | 0, _ => []
  | k + 1, v => v.testBit k :: topBits k v

/-- A character of a name (`bin.go:92`, `:173`). -/
def isName (c : Char) : Bool := c == 'a' || c == 'b' || c == 'c' || c == 'd'

/-- What is left after `]` (`bin.go:127-132`). -/
def closed (s : St) (out : List Bool) : St :=
  { s with sub := false, bits := 0, check := none, more := false, less := false, same := false, out := out }

/-- `]` (`bin.go:94-132`). -/
def closeSub (args : List Arg) (s : St) : Option St :=
  match s.name with
  | none => none
  | some x =>
    match argOf args x with
    | none => none
    | some v =>
      match s.check with
      | none =>
        some (closed s (s.out ++ topBits (if 1 < s.bits then s.bits - 1 else s.bits)
          (v % 2 ^ (if 1 < s.bits then s.bits - 1 else s.bits))))
      | some text =>
        if 1 < s.bits then some (closed s (s.out ++ topBits (s.bits - 1) (v % 2 ^ (s.bits - 1))))
        else
          match decFrom 0 text with
          | none => none
          | some lit =>
            some (closed s (s.out ++
              [(s.more && decide (lit < v)) || (s.less && decide (v < lit)) || (s.same && decide (v = lit))]))

/-- The text of a literal goes on with this character (the text `word[check:i]`, `bin.go:112`). -/
def noteChar (s : St) (c : Char) : St :=
  match s.check with
  | none => s
  | some text => { s with check := some (text ++ [c]) }

/-- A character inside brackets (`bin.go:90-164`). -/
def subStep (args : List Arg) (s : St) (c : Char) : Option St :=
  if isName c then some { noteChar s c with name := some c }
  else if c = ']' then closeSub args s
  else if c = '0' then
    if s.more || s.less || s.same || s.check.isSome then none else some { s with bits := s.bits + 1 }
  else if c = '<' then if 1 < s.bits then none else some { noteChar s c with less := true }
  else if c = '>' then if 1 < s.bits then none else some { noteChar s c with more := true }
  else if c = '=' then if 1 < s.bits then none else some { noteChar s c with same := true }
  else if '1' ≤ c ∧ c ≤ '9' then
    if 1 < s.bits then none
    else
      match s.check with
      | none => some { s with check := some [c] }
      | some text => some { s with check := some (text ++ [c]) }
  else none

/-- `strings.Count(tag, string(char)) - 1` (`bin.go:174`). -/
def sizeOf (tag : Str) (c : Char) : Nat := tag.count c - 1

/-- `arg % (1 << size)`, and its bit `size - bits` (`bin.go:180-183`): a difference below 0 wraps around and the bit
shifted that far is 0. -/
def letterBit (v size bits : Nat) : Bool := decide (bits ≤ size) && (v % 2 ^ size).testBit (size - bits)

/-- A character outside brackets (`bin.go:166-193`). -/
def step (tag : Str) (args : List Arg) (s : St) (c : Char) : Option St :=
  if s.bits > 0 && s.sub then subStep args s c
  else if c = '0' then some { s with out := s.out ++ [false] }
  else if c = '1' then some { s with out := s.out ++ [true] }
  else if isName c then
    match argOf args c with
    | none => none
    | some v =>
      if 64 ≤ sizeOf tag c then none
      else
        some { s with
          name := some c
          bits := (if s.name = some c then s.bits else 0) + 1
          out := s.out ++ [letterBit v (sizeOf tag c) (if s.name = some c then s.bits else 0)] }
  else if c = '[' then some { s with bits := 1, sub := true }
  else if s.bits = 0 then none
  else some s

/-- The characters of a word one after the other (`bin.go:89-194`). -/
def steps (tag : Str) (args : List Arg) : St → Str → Option St
  | s, [] => some s
  | s, c :: cs =>
    match step tag args s c with
    | some s => steps tag args s cs
    | none => none

/-- Eight bits, the most significant first (`b`, `bin.go:87`). -/
def byteOf (bs : List Bool) : Nat := bs.foldl (fun n b => 2 * n + b.toNat) 0

/-- The state at the start of a word: name and bits are those of the word before (`bin.go:78-88`). -/
def startWord (name : Option Char) (bits : Nat) : St := ⟨name, bits, false, none, false, false, false, []⟩

/-- One word (`bin.go:70-198`): the byte, and the name and bits for the next one. -/
def word (tag : Str) (args : List Arg) (name : Option Char) (bits : Nat) (w : Str) : Option (Nat × Option Char × Nat) :=
  match w with
  | '0' :: 'x' :: hex =>
    match parseHex hex with
    | some b => some (b, name, bits)
    | none => none
  | _ =>
    match steps tag args (startWord name bits) w with
    | none => none
    | some s => if s.out.length = 8 then some (byteOf s.out, s.name, s.bits) else none

/-- The words one after the other (`bin.go:69-200`). -/
def wordsFrom (tag : Str) (args : List Arg) : Option Char → Nat → List Str → Option (List Nat)
  | _, _, [] => some []
  | name, bits, w :: ws =>
    match word tag args name bits w with
    | none => none
    | some (b, name, bits) =>
      match wordsFrom tag args name bits ws with
      | some bs => some (b :: bs)
      | none => none

/-- The bytes a function with this tag appends (`bin.go:58-202`), in reverse for some formats. -/
def write (reverse : Bool) (tag : Str) (args : List Arg) : Option (List Nat) :=
  wordsFrom tag args none 0 (if reverse then (words tag).reverse else words tag)

end Verif.Bin
