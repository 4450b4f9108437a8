/-!
# Model of the command-line linker (api/cmdl) and of the argument scanner (api/api.go)

Texts are lists of characters. Values that are neither strings nor booleans are an arbitrary type
`α` with its text codec: `Codec.shows` is `fmt.Sprint` and `Codec.scans` is `fmt.Sscanf(text, "%v", &v)`.
Both are parameters, so that nothing is assumed about them.
-/
namespace Verif.Cmdl

/-- A Go string (`link.go:23`). -/
abbrev Str := List Char

/-- `strings.Split(s, sep)` for a separator of one character (`used at link.go:132, main.go:206`). -/
def split (sep : Char) : Str → List Str
  | [] => [[]]
  | c :: cs =>
    if c = sep then [] :: split sep cs
    else match split sep cs with
      | [] => [[c]]
      | w :: ws => (c :: w) :: ws

/-- `strings.Cut(s, sep)` for a separator of one character, without the flag (`used at link.go:120`). -/
def cut (sep : Char) : Str → Str × Str
  | [] => ([], [])
  | c :: cs => if c = sep then ([], cs) else (c :: (cut sep cs).1, (cut sep cs).2)

/-- `strings.Contains(s, sub)` (`used at link.go:56-66, main.go:103`). -/
def contains (sub : Str) : Str → Bool
  | [] => sub.isEmpty
  | c :: cs => sub.isPrefixOf (c :: cs) || contains sub cs

/-- What `fmt` does with the values of a type (`used at link.go:95, main.go:212-268`). -/
structure Codec (α : Type) where
  shows : α → Str
  scans : Str → Option α
  zero : α

/-- The kinds of parameters that are modelled: strings, slices of strings, and those that go
through `fmt`. Interfaces, pointers, structs as whole arguments and text unmarshalers are not
(`link.go:29-95, main.go:212-268`). -/
inductive Kind
  | str | strs | num
deriving DecidableEq

/-- Values of these kinds (`link.go:28`). -/
inductive Val (α : Type)
  | str (s : Str)
  | strs (l : List Str)
  | num (a : α)
deriving DecidableEq

/-- `Value.Kind` (`link.go:29`). -/
def Val.kind {α : Type} : Val α → Kind
  | .str _ => .str
  | .strs _ => .strs
  | .num _ => .num

/-- `reflect.New(fn.In(i)).Elem()` (main.go:199-201). -/
def Codec.fresh {α : Type} (c : Codec α) : Kind → Val α
  | .str => .str []
  | .strs => .strs []
  | .num => .num c.zero

/-! ## api.ArgumentScanner -/

/-- The number written in decimal, `none` if there is another character or none at all. Signs,
which `fmt.Sscanf` would take too, are left out (`fmt.Sscanf` at `/repo/api/api.go:520-555`). -/
def decimal (s : Str) : Option Nat :=
  if s.isEmpty then none
  else s.foldl (fun acc c => acc.bind fun n => if c.isDigit then some (10 * n + (c.toNat - 48)) else none) (some 0)

/-- What a format says (api.go:521-537): the next argument, a numbered one, or something else, which
is looked up as the name of a field. -/
inductive Fmt
  | next
  | nth (n : Nat)
  | other
deriving DecidableEq

/-- Reading of a format (api.go:521-532). -/
def fmtOf (s : Str) : Fmt :=
  match s with
  | ['%', 'v'] => .next
  | '%' :: '[' :: rest =>
    if ['v', ']'].isPrefixOf rest.reverse then
      match decimal (rest.reverse.drop 2).reverse with
      | some n => .nth n
      | none => .other
    else .other
  | _ => .other

/-- `ArgumentScanner.Scan` (api.go:520-555): the index of the argument and the new state; none is an
error. A number counts from the state. Names of fields are not found, since struct arguments are
not modelled. -/
def scan (len n : Nat) (format : Str) : Option (Nat × Nat) :=
  match fmtOf format with
  | .next => if n ≥ len then none else some (n, n + 1)
  | .nth k => if k < 1 then none else if n + k > len then none else some (n + k - 1, n)
  | .other => none

/-! ## The client -/

/-- `cmdInput.add` (link.go:28-92) for the kinds modelled: the words that are added. -/
def words {α : Type} (c : Codec α) : Val α → List Str
  | .str s => [s]
  | .strs l => l
  | .num a => [c.shows a]

/-- `strings.Trim(s, "{}")` (`link.go:134`). -/
def trimBraces (s : Str) : Str :=
  ((s.dropWhile fun c => c = '{' || c = '}').reverse.dropWhile fun c => c = '{' || c = '}').reverse

/-- Whether the client takes a component for a placeholder (link.go:133). -/
def placeholder (s : Str) : Bool := s.head? = some '%' || s.head? = some '{'

/-- The loop over the components (link.go:131-146): the words of the command line; none is an
error. -/
def clientLoop {α : Type} (c : Codec α) (args : List (Val α)) : List Str → Nat → Option (List Str)
  | [], _ => some []
  | comp :: comps, n =>
    if placeholder comp then
      match scan args.length n (trimBraces comp) with
      | none => none
      | some (i, n') => match args[i]? with
        | none => none
        | some v => match clientLoop c args comps n' with
          | none => none
          | some ws => some (words c v ++ ws)
    else match clientLoop c args comps n with
      | none => none
      | some ws => some (comp :: ws)

/-- The words that the client runs the program with (link.go:114-146): `pre` is the tag of the
section, the program is already known, and `| json` has been taken off the tag. -/
def client {α : Type} (c : Codec α) (pre tag : Str) (args : List (Val α)) : Option (List Str) :=
  let tag := if pre = [] then tag else pre ++ ' ' :: tag
  if tag = [] then some [] else clientLoop c args (split ' ' tag) 0

/-! ## The program -/

/-- `api.Function`, as far as it is looked at: its tag, parameters and whether it is variadic
(`link.go:114-135, main.go:323-349`). -/
structure Fn where
  tag : Str
  params : List Kind
  variadic : Bool := false

/-- Whether the program takes a component for a placeholder (main.go:207, 330). -/
def percent (s : Str) : Bool := s.head? = some '%'

/-- The score of the components of a tag (main.go:328-344): `ws` are the words from the position of
the component on. -/
def scoreFrom : List Str → List Str → Nat
  | [], _ => 0
  | comp :: comps, ws =>
    if percent comp then 1 + scoreFrom comps ws.tail
    else match ws with
      | [] => 0
      | w :: ws => if comp = w then 2 + scoreFrom comps ws else 0

/-- The score of a command, for the words after the name of the program (`main.go:328-344`). -/
def score (tag : Str) (ws : List Str) : Nat := scoreFrom (split ' ' tag) ws

/-- The loop over the functions (main.go:323-349). -/
def best (ws : List Str) : List Fn → Option Fn × Nat → Option Fn × Nat
  | [], m => m
  | fn :: fns, m => best ws fns (if score fn.tag ws > m.2 then (some fn, score fn.tag ws) else m)

/-- The end of `System.match` (main.go:350-353). -/
def chosen (m : Option Fn × Nat) : Option Fn := if m.2 = 0 then none else m.1

/-- `System.match` (main.go:314-354). -/
def dispatch (fns : List Fn) (args : List Str) : Option Fn :=
  if args.length = 1 then none else chosen (best args.tail fns (none, 0))

/-- What becomes of a command line (`main.go:184-283`). -/
inductive Out (α : Type)
  | help | unknown | error | panic
  | call (args : List (Val α))
deriving DecidableEq

/-- Reading one word into an argument (main.go:212-268): the new value, none is an error. `i` is the
index of the argument, `rest` all words from this one on. Of the numbered formats `fmt.Sscanf`
knows none. -/
def readArg {α : Type} (c : Codec α) (fn : Fn) (i : Nat) (comp : Str) (w : Str) (rest : List Str) :
    Option (Val α) :=
  match fn.params[i]? with
  | some .str => some (.str w)
  | some .strs => if fn.variadic && i + 1 = fn.params.length then some (.strs rest) else none
  | some .num => if comp = ['%', 'v'] then (c.scans w).map .num else none
  | none => none

/-- The loop over the components (main.go:206-275): the arguments; `ws` are the words that are left,
an index beyond them panics. -/
def runLoop {α : Type} (c : Codec α) (fn : Fn) : List Str → List Str → Nat → List (Val α) → Out α
  | [], _, _, args => .call args
  | comp :: comps, ws, n, args =>
    if percent comp then
      match scan fn.params.length n comp with
      | none => .error
      | some (i, n') => match ws with
        | [] => .panic
        | w :: ws' => match readArg c fn i comp w ws with
          | none => .error
          | some v => if ws' = [] then .call (args.set i v) else runLoop c fn comps ws' n' (args.set i v)
    else if ws.tail = [] then .call args else runLoop c fn comps ws.tail n args

/-- `System.Run` up to the call (main.go:184-283). The values of a variadic parameter are kept as
one list. -/
def run {α : Type} (c : Codec α) (fns : List Fn) (args : List Str) : Out α :=
  match dispatch fns args with
  | none => if args.length = 1 then .help else if args.length = 0 then .panic else .unknown
  | some fn =>
    runLoop c fn (split ' ' ((split ',' fn.tag).headD [])) args.tail 0 (fn.params.map c.fresh)

end Verif.Cmdl
