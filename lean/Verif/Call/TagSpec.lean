import Verif.Call.TagModel

/-! # What call tags mean

The notation of types in call tags (docs.go:6-129, in the form of tag_test.go), independent of the
parser: abstract types, how they are written, and the structure they stand for. -/

namespace Verif.Call.Spec

/-- What an assertion refers to. -/
inductive Arg where
  | index (n : Nat)
  | const (s : List Char)
  | value (n : Nat)
deriving DecidableEq, Repr

/-- The relations of assertions. -/
inductive Rel where
  | more | less | moreEq | lessEq | equal | same | apart | lifetime | format
deriving DecidableEq, Repr

/-- What the relation is about: the value, its capacity, what it points to (`k + 1` steps away), or each
of a variable number of values. -/
inductive Subject where
  | value | capacity | behind (k : Nat) | each
deriving DecidableEq, Repr

/-- An assertion. -/
structure Check where
  subject : Subject
  invert : Bool
  rel : Rel
  arg : Arg
deriving DecidableEq, Repr

/-- A type other than a function. -/
structure Simple where
  free : Option Char
  hash : Bool
  name : List Char
  check : Option Check
deriving DecidableEq, Repr

mutual
/-- A type. -/
inductive Ty where
  | simple (s : Simple)
  | func (free : Option Char) (hash : Bool) (args : Tys) (ret : Ret)
/-- Arguments. -/
inductive Tys where
  | nil
  | cons (t : Ty) (ts : Tys)
/-- A result: none, one, or one with an assertion and the symbol that says why it failed. -/
inductive Ret where
  | none
  | some (t : Ty)
  | fails (s : Simple) (c : Check) (symbol : List Char) (args : List Arg)
end

/-! ## Notation -/

/-- An argument as written. -/
def Arg.text : Arg → List Char
  | .index n => '@' :: Nat.toDigits 10 n
  | .const s => s
  | .value n => Nat.toDigits 10 n

/-- The sign of a relation. -/
def Rel.sign : Rel → Char
  | .more => '>' | .less => '<' | .moreEq => '>' | .lessEq => '<'
  | .equal => '=' | .same => ':' | .apart => '~' | .lifetime => '^' | .format => '?'

/-- A relation with its argument. -/
def relText (r : Rel) (a : Arg) : List Char :=
  r.sign :: a.text ++ (match r with | .moreEq => ['='] | .lessEq => ['='] | _ => [])

/-- An assertion as written. -/
def Check.text (c : Check) : List Char :=
  match c.subject with
  | .value => (if c.invert then ['!'] else []) ++ relText c.rel c.arg
  | .capacity => '[' :: ((if c.invert then ['!'] else []) ++ relText c.rel c.arg) ++ [']']
  | .behind k => List.replicate (k + 1) '*' ++ (if c.invert then ['!'] else []) ++ relText c.rel c.arg
  | .each => ['.', '.', '.'] ++ (if c.invert then ['!'] else []) ++ relText c.rel c.arg

/-- Ownership and immutability as written. -/
def marks (free : Option Char) (hash : Bool) : List Char :=
  free.toList ++ (if hash then ['#'] else [])

/-- A type other than a function as written. -/
def Simple.text (s : Simple) : List Char :=
  marks s.free s.hash ++ s.name ++ (match s.check with | .none => [] | .some c => c.text)

/-- Texts with commas between them. -/
def commas : List (List Char) → List Char
  | [] => []
  | [w] => w
  | w :: ws => w ++ ',' :: commas ws

mutual
/-- A type as written. -/
def Ty.text : Ty → List Char
  | .simple s => s.text
  | .func free hash args ret =>
    marks free hash ++ "func".toList ++ '(' :: (args.text ++ ')' :: ret.text)
/-- Arguments as written. -/
def Tys.text : Tys → List Char
  | .nil => []
  | .cons t .nil => t.text
  | .cons t ts => t.text ++ ',' :: ts.text
/-- A result as written. -/
def Ret.text : Ret → List Char
  | .none => []
  | .some t => t.text
  | .fails s c symbol args =>
    Simple.text { s with check := .some c } ++ ';' :: ' ' :: symbol ++
      '(' :: (commas (args.map Arg.text) ++ [')'])
end

/-! ## Meaning -/

/-- The argument an assertion refers to. -/
def Arg.means : Arg → Argument
  | .index n => .index n
  | .const s => .const s
  | .value n => .value n

/-- The structure an assertion stands for. -/
def Check.means (c : Check) : Assertions where
  capacity := c.subject = .capacity
  inverted := if c.rel = .apart then !c.invert else c.invert
  indirect := match c.subject with | .behind k => k + 1 | _ => 0
  lifetime := if c.rel = .lifetime then .some c.arg.means else .none
  overlaps := if c.rel = .apart then .some c.arg.means else .none
  sameType := if c.rel = .same then .some c.arg.means else .none
  equality := if c.rel = .equal ∨ c.rel = .moreEq ∨ c.rel = .lessEq then .some c.arg.means else .none
  moreThan := if c.rel = .more ∨ c.rel = .moreEq then .some c.arg.means else .none
  lessThan := if c.rel = .less ∨ c.rel = .lessEq then .some c.arg.means else .none
  ofFormat := if c.rel = .format then .some c.arg.means else .none

/-- The plain fields of a type other than a function. -/
def Simple.means (s : Simple) : Head where
  name := s.name
  hash := s.hash
  free := s.free
  test := match s.check with | .none => {} | .some c => c.means
  more := match s.check with | .none => false | .some c => c.subject = .each

mutual
/-- The structure a type stands for. -/
def Ty.means : Ty → T
  | .simple s => .mk s.means .none .nil
  | .func free hash args ret =>
    .mk { name := "func".toList, hash := hash, free := free, call := ret.symbol } ret.means
      (args.means 1)
/-- The structure arguments stand for: the first one is number `n`. -/
def Tys.means : Tys → Nat → Ts
  | .nil, _ => .nil
  | .cons t ts, n => .cons (t.means.withMaps n) (ts.means (n + 1))
/-- The structure a result stands for. -/
def Ret.means : Ret → TOpt
  | .none => .none
  | .some t => .some t.means
  | .fails s c _ _ => .some (.mk (Simple.means { s with check := .some c }) .none .nil)
/-- The symbol that says why a result failed. -/
def Ret.symbol : Ret → Call
  | .fails _ _ symbol args => { name := symbol, args := args.map Arg.means }
  | _ => {}
end

/-! ## Which of them can be written -/

/-- Identifiers. -/
def IsName (s : List Char) : Prop :=
  ∃ c r, s = c :: r ∧ (c = '_' ∨ c.isAlpha) ∧ ∀ d ∈ r, d = '_' ∨ d.isAlpha ∨ d.isDigit

/-- References go up to 127, numbers are those of 64 bits. -/
def Arg.Valid : Arg → Prop
  | .index n => n ≤ 127
  | .const s => IsName s
  | .value n => n < 2 ^ 63

/-- The signs of ownership. -/
def FreeValid (free : Option Char) : Prop := ∀ c ∈ free, c ∈ ['$', '&', '*', '~', '+', '-']

/-- Types other than functions. -/
def Simple.Valid (s : Simple) : Prop :=
  FreeValid s.free ∧ IsName s.name ∧ s.name ≠ "func".toList ∧ ∀ c ∈ s.check, c.arg.Valid

mutual
/-- Types that can be written. -/
def Ty.Valid : Ty → Prop
  | .simple s => s.Valid
  | .func free _ args ret => FreeValid free ∧ args.Valid ∧ ret.Valid
/-- Arguments that can be written. -/
def Tys.Valid : Tys → Prop
  | .nil => True
  | .cons t ts => t.Valid ∧ ts.Valid
/-- Results that can be written. -/
def Ret.Valid : Ret → Prop
  | .none => True
  | .some t => t.Valid
  | .fails s c symbol args =>
    Simple.Valid { s with check := .some c } ∧ IsName symbol ∧ ∀ a ∈ args, a.Valid
end

/-- Symbols: no commas, no spaces. -/
def SymbolsValid (names : List (List Char)) : Prop :=
  names ≠ [] ∧ ∀ s ∈ names, ',' ∉ s ∧ ' ' ∉ s

/-- A whole tag. -/
def tagText (names : List (List Char)) (t : Ty) : List Char := commas names ++ ' ' :: t.text

end Verif.Call.Spec
