import Verif.Cmdl.Model
/-!
# Model of options (api/cmdl/main.go `consume`, api/cmdl/link.go `cmdInput.add` for structs)

Structs are flat: their fields are booleans, strings and values that go through `fmt`. Structs in
structs, pointers and text unmarshalers are not modelled. What `fmt.Sscanf` reads is a parameter.
-/
namespace Verif.Cmdl

/-- The value of a field (`main.go:124-173, link.go:41-80`). -/
inductive OVal (α : Type)
  | bool (b : Bool)
  | str (s : Str)
  | num (a : α)
deriving DecidableEq

/-- A field of an options struct: its `cmdl` tag and its value (`main.go:96-98, link.go:51`). -/
structure OField (α : Type) where
  tag : Str
  val : OVal α
deriving DecidableEq

/-- `fmt`: `bools format text` and `nums format text` are `fmt.Sscanf(text, format, &v)`, `shows` is
`fmt.Sprint` (`main.go:124-173, link.go:76`). -/
structure OCodec (α : Type) where
  bools : Str → Str → Option Bool
  nums : Str → Str → Option α
  shows : OVal α → Str

/-- The variables of one round of the loop of `consume` (main.go:92-95). -/
structure Round (α : Type) where
  tracker : Nat
  extra : Nat
  arg : Str
  consuming : Bool
deriving DecidableEq

/-- The name part of a tag, and its flags (main.go:98). -/
def nameOf (tag : Str) : Str := (cut ',' tag).1
/-- The flags of a tag (main.go:98). -/
def optsOf (tag : Str) : Str := (cut ',' tag).2

/-- What comes before the placeholder, and the placeholder (main.go:103-105). -/
def prefixOf (name : Str) : Str := (cut '%' name).1
/-- The placeholder (main.go:103-105); empty if there is none. -/
def formatOf (name : Str) : Str := if '%' ∈ name then '%' :: (cut '%' name).2 else []

/-- Whether the word matches the field (main.go:99, 106-108). -/
def matchesField (name arg : Str) : Bool :=
  decide (arg = name) || (decide ('%' ∈ name) && (prefixOf name).isPrefixOf arg)

/-- The word, the tracker and so on after the placeholder of a field has been looked at, which
happens whether or not the word matches (main.go:109-119); none is an error. -/
def shift {α : Type} (args : List Str) (name : Str) (r : Round α) : Option (Round α) :=
  if '%' ∉ name then some r
  else if (prefixOf name).getLast? = some '=' then
    some { r with arg := if (prefixOf name).isPrefixOf r.arg then r.arg.drop (prefixOf name).length else r.arg }
  else if (prefixOf name).getLast? = some ' ' then
    match args[r.tracker + 1]? with
    | none => none
    | some w => some { tracker := r.tracker + 1, extra := r.extra + 1, arg := w, consuming := true }
  else some r

/-- Setting the field (main.go:124-173): its value and the new state; none is an error. -/
def setField {α : Type} (c : OCodec α) (f : OField α) (r : Round α) : Option (OVal α × Round α) :=
  match f.val with
  | .bool _ =>
    match (if '%' ∈ nameOf f.tag then c.bools (formatOf (nameOf f.tag)) r.arg else some true) with
    | none => none
    | some val =>
      some (.bool (if contains "invert".toList (optsOf f.tag) then !val else val),
        if val then { r with tracker := r.tracker + 1, extra := r.extra + 1, consuming := true } else r)
  | .str _ => some (.str r.arg, r)
  | .num _ => (c.nums (formatOf (nameOf f.tag)) r.arg).map fun a => (.num a, r)

/-- One field in one round (main.go:96-174). -/
def oneField {α : Type} (c : OCodec α) (args : List Str) (f : OField α) (r : Round α) :
    Option (OField α × Round α) :=
  match shift args (nameOf f.tag) r with
  | none => none
  | some r' =>
    if !matchesField (nameOf f.tag) r.arg then some (f, r')
    else match setField c f r' with
      | none => none
      | some (v, r'') => some ({ f with val := v }, r'')

/-- The loop over the fields (main.go:95-174). -/
def allFields {α : Type} (c : OCodec α) (args : List Str) :
    List (OField α) → Round α → Option (List (OField α) × Round α)
  | [], r => some ([], r)
  | f :: fs, r => match oneField c args f r with
    | none => none
    | some (f, r) => match allFields c args fs r with
      | none => none
      | some (fs, r) => some (f :: fs, r)

/-- The outcome of `consume` (`main.go:76`). -/
inductive Consumed (α : Type)
  | error | panic
  | done (fields : List (OField α)) (extra : Nat)
deriving DecidableEq

/-- The outer loop (main.go:92-179). A round that is followed by another has moved the tracker, so
the number of words bounds the number of rounds; `fuel` is that bound. -/
def rounds {α : Type} (c : OCodec α) (args : List Str) :
    Nat → List (OField α) → Nat → Nat → Consumed α
  | 0, fs, _, extra => .done fs extra
  | fuel + 1, fs, tracker, extra => match args[tracker]? with
    | none => .panic
    | some w => match allFields c args fs ⟨tracker, extra, w, false⟩ with
      | none => .error
      | some (fs, r) =>
        if r.tracker ≥ args.length then .done fs r.extra
        else if r.consuming then rounds c args fuel fs r.tracker r.extra
        else .done fs r.extra

/-- The first loop (main.go:82-91): flags that are inverted begin as true. -/
def presets {α : Type} (f : OField α) : OField α :=
  match f.val with
  | .bool _ => if contains ",invert".toList f.tag then { f with val := .bool true } else f
  | _ => f

/-- `consume` (main.go:76-182) from the word at `tracker` on. -/
def consume {α : Type} (c : OCodec α) (args : List Str) (fs : List (OField α)) (tracker : Nat) : Consumed α :=
  rounds c args (args.length + 1) (fs.map presets) tracker 0

/-- The result of `consume`'s `hasCMDL` (main.go:85-87). -/
def hasCMDL {α : Type} (fs : List (OField α)) : Bool := fs.any fun f => !f.tag.isEmpty

/-- Whether a value is the zero value (`link.go:58`). -/
def isZero {α : Type} (zero : α → Bool) : OVal α → Bool
  | .bool b => !b
  | .str s => s.isEmpty
  | .num a => zero a

/-- `fmt.Sprintf(part, v)` for parts with one `%v` at most, and no other placeholder (`link.go:76`). -/
def sprintf {α : Type} (c : OCodec α) (part : Str) (v : OVal α) : Str :=
  match part with
  | [] => []
  | '%' :: 'v' :: rest => c.shows v ++ rest
  | ch :: rest => ch :: sprintf c rest v

/-- The words of one field of an options struct (link.go:41-80). The flags `env` and `dir`, which
produce no words, are not modelled. -/
def fieldWords {α : Type} (c : OCodec α) (zero : α → Bool) (f : OField α) : List Str :=
  if f.tag = ['-'] then []
  else
    let isBool := match f.val with | .bool _ => true | _ => false
    let flag := !contains ['%', 'v'] f.tag && isBool
    if (contains ",omitempty".toList f.tag || contains ",omitzero".toList f.tag || flag) && isZero zero f.val then []
    else (split ' ' (nameOf f.tag)).map fun part => if '%' ∈ part then sprintf c part f.val else part

/-- The words of an options struct (link.go:40-81). -/
def structWords {α : Type} (c : OCodec α) (zero : α → Bool) (fs : List (OField α)) : List Str :=
  fs.flatMap (fieldWords c zero)

end Verif.Cmdl
