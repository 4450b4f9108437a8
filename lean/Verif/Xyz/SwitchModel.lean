/-!
# Model of switch types (enums)

Models `/repo/xyz/switch.go`. A declaration is the list of the names of its fields (the
`json` tag if there is one, else the field name; switch.go:85-88,134-137,175-178,232-235).
The storage types are booleans, integers of each width, `uintptr` and strings; floating
point storage is not modelled. Of the standard library the model has `fmt.Sprint` on these
types and `fmt.Sscan`, with the base prefixes 0b, 0o, 0x and the underscores that it
accepts in numbers.
-/
namespace Verif.Xyz

/-- Texts (`switch.go:78`, `:129`). -/
abbrev Str := List Char

/-- The storage type (`switchable`, switch.go:36-38). `int` and `uint` are the 64-bit ones. -/
inductive Kind where
  | bool
  | int (bits : Nat)
  | uint (bits : Nat)
  | uintptr
  | string
deriving DecidableEq

/-- A value of the storage type (`v.ram`, `switch.go:89`, `:137`). -/
inductive Val where
  | b (v : Bool)
  | i (v : Int)
  | s (v : Str)
deriving DecidableEq

/-- The value is one of that type (and there is such a type: no integer has no bits) (`v.ram`, `switch.go:89-120`). -/
def Kind.Has : Kind → Val → Prop
  | .bool, .b _ => True
  | .int w, .i n => w ≠ 0 ∧ -(2 ^ (w - 1) : Int) ≤ n ∧ n < 2 ^ (w - 1)
  | .uint w, .i n => 0 ≤ n ∧ n < 2 ^ w
  | .uintptr, .i n => 0 ≤ n ∧ n < 2 ^ 64
  | .string, .s _ => True
  | _, _ => False

/-- `reflect.Zero` (switch.go:226). -/
def Kind.zero : Kind → Val
  | .bool => .b false
  | .int _ => .i 0
  | .uint _ => .i 0
  | .uintptr => .i 0
  | .string => .s []

/-- The conversion of a field's position to the storage type (switch.go:90-121,180-211):
wraps around, and does nothing at all for `uintptr` and strings. -/
def Kind.ofIndex : Kind → Nat → Option Val
  | .bool, i => some (.b (i != 0))
  | .int w, i => some (.i (((i : Int) + 2 ^ (w - 1)) % 2 ^ w - 2 ^ (w - 1)))
  | .uint w, i => some (.i ((i : Int) % 2 ^ w))
  | .uintptr, _ => none
  | .string, _ => none

/-- The digits of a number, as `fmt.Sprint` writes them (`switch.go:165`). -/
def natText (n : Nat) : Str :=
  if n < 10 then [Char.ofNat (48 + n)] else natText (n / 10) ++ [Char.ofNat (48 + n % 10)]

/-- `fmt.Sprint` (switch.go:165). -/
def sprint : Val → Str
  | .b v => if v then "true".toList else "false".toList
  | .i n => if n < 0 then '-' :: natText n.natAbs else natText n.natAbs
  | .s v => v

/-- The comparison of a value with the position of a field (switch.go:138-163); `uintptr` is
not among the cases. -/
def matchesIndex (k : Kind) (names : List Str) (v : Val) (i : Nat) : Bool :=
  match k, v with
  | .string, .s t => names[i]? == some t
  | .int _, .i n => n == (i : Int)
  | .uint _, .i n => n == (i : Int)
  | .bool, .b t => t == (i != 0)
  | _, _ => false

/-- The first position (below `n`, from `i`) that passes a test (`switch.go:131`, `:172`). -/
def firstFrom (p : Nat → Bool) : Nat → Nat → Option Nat
  | _, 0 => none
  | i, n + 1 => if p i then some i else firstFrom p (i + 1) n

/-- `MarshalText` (switch.go:129-166). -/
def marshalText (k : Kind) (names : List Str) (v : Val) : Str :=
  match firstFrom (matchesIndex k names v) 0 names.length with
  | some i => (names[i]?).getD []
  | none => sprint v

/-- Spaces that `fmt.Sscan` skips and stops at (`fmt.isSpace`), newlines among them (`switch.go:218`). -/
def isBlank (c : Char) : Bool :=
  let n := c.toNat
  (9 ≤ n && n ≤ 13) || n == 32 || n == 0x85 || n == 0xA0 || n == 0x1680 ||
    (0x2000 ≤ n && n ≤ 0x200a) || n == 0x2028 || n == 0x2029 || n == 0x202f || n == 0x205f ||
    n == 0x3000

/-- Decimal digit (`switch.go:218`). -/
def isDec (c : Char) : Bool := 48 ≤ c.toNat && c.toNat ≤ 57

/-- The value of a digit in bases up to 16 (inside `Sscan`, `switch.go:218`). -/
def digitVal (c : Char) : Option Nat :=
  let n := c.toNat
  if 48 ≤ n ∧ n ≤ 57 then some (n - 48)
  else if 97 ≤ n ∧ n ≤ 102 then some (n - 87)
  else if 65 ≤ n ∧ n ≤ 70 then some (n - 55)
  else none

/-- A character of a number in a base: a digit of the base or an underscore (`scanNumber` inside `Sscan`, `switch.go:218`). -/
def inBase (base : Nat) (c : Char) : Bool :=
  c == '_' || (match digitVal c with | some d => d < base | none => false)

/-- The value of digits in a base; underscores are skipped (`ParseInt` inside `Sscan`, `switch.go:218`). -/
def numVal (base : Nat) (ds : Str) : Nat :=
  ds.foldl (fun a c => match digitVal c with | some d => a * base + d | none => a) 0

/-- `underscoreOK` of strconv: an underscore only between digits, or after the prefix; the flag
tells whether what comes before counts as a digit (inside `Sscan`, `switch.go:218`). -/
def underOK : Bool → Str → Bool
  | prev, [] => prev
  | prev, c :: s => if c = '_' then prev && underOK false s else underOK true s

/-- The digits at the front, given to `ParseInt` or `ParseUint`; what follows them is left alone
(inside `Sscan`, `switch.go:218`). -/
def scanDigits (base : Nat) (prefixed needed : Bool) (s : Str) : Option Nat :=
  let ds := s.takeWhile (inBase base)
  if needed && ds.isEmpty then none
  else if underOK prefixed ds then some (numVal base ds) else none

/-- The unsigned number `fmt.Sscan` reads at the front: decimal, octal after a zero, or after
the prefix of a base (`scanBasePrefix` inside `Sscan`, `switch.go:218`). -/
def scanNat : Str → Option Nat
  | '0' :: s =>
    match s with
    | [] => some 0
    | c :: t =>
      if c = 'b' ∨ c = 'B' then scanDigits 2 true true t
      else if c = 'o' ∨ c = 'O' then scanDigits 8 true true t
      else if c = 'x' ∨ c = 'X' then scanDigits 16 true true t
      else scanDigits 8 true false (c :: t)
  | s => scanDigits 10 false true s

/-- The sign of a number, and what follows it (`switch.go:218`). -/
def scanSign : Str → Bool × Str
  | '-' :: rest => (true, rest)
  | '+' :: rest => (false, rest)
  | t => (false, t)

/-- `accept`: consumes one character of a small set (`switch.go:218`). -/
def eat (cs : List Char) : Str → Option Str
  | c :: t => if c ∈ cs then some t else none
  | [] => none

/-- A boolean read at the front: anything that does not begin like one is false (`switch.go:218`). -/
def scanBool : Str → Option Bool
  | [] => none
  | c :: t =>
    if c = '1' then some true
    else if c = 't' ∨ c = 'T' then
      match eat ['r', 'R'] t with
      | none => some true
      | some t => ((eat ['u', 'U'] t).bind (eat ['e', 'E'])).map (fun _ => true)
    else if c = 'f' ∨ c = 'F' then
      match eat ['a', 'A'] t with
      | none => some false
      | some t => (((eat ['l', 'L'] t).bind (eat ['s', 'S'])).bind (eat ['e', 'E'])).map (fun _ => false)
    else some false

/-- `fmt.Sscan` into a variable of the storage type (switch.go:219); none is an error, which
leaves the variable alone. A string is read up to the next space. -/
def sscan (k : Kind) (t : Str) : Option Val :=
  let t := t.dropWhile isBlank
  if t = [] then none else
  match k with
  | .bool => (scanBool t).map .b
  | .int w =>
    (scanNat (scanSign t).2).bind fun n =>
      let v : Int := if (scanSign t).1 then -(n : Int) else n
      if -(2 ^ (w - 1) : Int) ≤ v ∧ v < 2 ^ (w - 1) then some (.i v) else none
  | .uint w => (scanNat t).bind fun n => if n < 2 ^ w then some (.i n) else none
  | .uintptr => (scanNat t).bind fun n => if n < 2 ^ 64 then some (.i n) else none
  | .string => some (.s (t.takeWhile (fun c => !isBlank c)))

/-- The first field of a name (switch.go:83-89,173-179). -/
def byName (names : List Str) (t : Str) : Option Nat :=
  firstFrom (fun i => names[i]? == some t) 0 names.length

/-- `UnmarshalText` (switch.go:169-220): the value afterwards, and whether there was no
error. -/
def unmarshalText (k : Kind) (names : List Str) (old : Val) (t : Str) : Val × Bool :=
  match (if k = Kind.string then none else byName names t : Option Nat) with
  | some i => ((k.ofIndex i).getD old, true)
  | none =>
    if t = [] then (old, true)
    else match sscan k t with
      | some v => (v, true)
      | none => (old, false)

/-- `Values` (switch.go:224-271): the value a field stands for. -/
def valueOf (k : Kind) (names : List Str) (i : Nat) : Val :=
  match k with
  | .string => .s ((names[i]?).getD [])
  | k => (k.ofIndex i).getD k.zero

/-- A JSON value, as far as switches care. Numbers are integers (the `data` of `switch.go:75`). -/
inductive JVal where
  | str (s : Str)
  | num (n : Int)
  | bool (b : Bool)
  | null
  | other
deriving DecidableEq

/-- `json.Marshal` of a switch: it has `MarshalText`, so its text as a string (`switch.go:129-166`). -/
def marshalJSON (k : Kind) (names : List Str) (v : Val) : JVal := .str (marshalText k names v)

/-- `json.Unmarshal` into the storage itself (switch.go:125). -/
def jsonInto (k : Kind) (j : JVal) : Option Val :=
  match k, j with
  | .string, .str s => some (.s s)
  | .bool, .bool b => some (.b b)
  | .int w, .num n => if -(2 ^ (w - 1) : Int) ≤ n ∧ n < 2 ^ (w - 1) then some (.i n) else none
  | .uint w, .num n => if 0 ≤ n ∧ n < 2 ^ w then some (.i n) else none
  | .uintptr, .num n => if 0 ≤ n ∧ n < 2 ^ 64 then some (.i n) else none
  | _, _ => none

/-- `UnmarshalJSON` (switch.go:75-126). -/
def unmarshalJSON (k : Kind) (names : List Str) (old : Val) (j : JVal) : Val × Bool :=
  let named : Option Nat := match j with
    | .str s => if k = Kind.string then none else byName names s
    | _ => none
  match named with
  | some i => ((k.ofIndex i).getD old, true)
  | none =>
    if j = JVal.null then (old, true) else
    match jsonInto k j with
    | some v => (v, true)
    | none => (old, false)

end Verif.Xyz
