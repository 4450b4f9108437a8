import Verif.Xyz.TaggedJson
/-!
# Model of tuples, duplex numbers and optional values

Models `/repo/xyz/tuples.go`, `/repo/xyz/duplex.go` and `Maybe` of `/repo/xyz/xyz.go`, with
JSON values instead of JSON texts. How the values inside are written and read is a parameter.
-/
namespace Verif.Xyz

/-- A value that may be a tuple of tuples; the components need not be of one type
(`tuples.go:10-13, 55-59, 105-110`). -/
inductive Tup (V : Type) where
  | leaf (v : V)
  | pair (x y : Tup V)
  | trio (x y z : Tup V)
  | quad (x y z w : Tup V)

/-- The type of such a value (`tuples.go:10-13, 55-59, 105-110`). -/
inductive Shape where
  | leaf
  | pair (x y : Shape)
  | trio (x y z : Shape)
  | quad (x y z w : Shape)

/-- The type a value is of (`tuples.go:10-13, 55-59, 105-110`). -/
def Tup.shape {V : Type} : Tup V → Shape
  | .leaf _ => .leaf
  | .pair x y => .pair x.shape y.shape
  | .trio x y z => .trio x.shape y.shape z.shape
  | .quad x y z w => .quad x.shape y.shape z.shape w.shape

/-- `MarshalJSON` (tuples.go:30-32,76-78,127-129): an array of the components. -/
def Tup.marshal {V : Type} (enc : V → J) : Tup V → J
  | .leaf v => enc v
  | .pair x y => .arr [x.marshal enc, y.marshal enc]
  | .trio x y z => .arr [x.marshal enc, y.marshal enc, z.marshal enc]
  | .quad x y z w => .arr [x.marshal enc, y.marshal enc, z.marshal enc, w.marshal enc]

/-- `json.Unmarshal` into `[n]json.RawMessage`: elements beyond `n` are dropped, those missing
are empty, and null changes nothing; anything else is an error (`tuples.go:35-36, 81-82, 132-133`). -/
def rawArray (n : Nat) : J → Option (List (Option J))
  | .arr l => some ((List.range n).map (fun i => l[i]?))
  | .null => some (List.replicate n none)
  | _ => none

/-- `UnmarshalJSON` (tuples.go:34-46,80-95,131-149); an empty text is an error. -/
def unmarshalTup {V : Type} (dec : J → Option V) : Shape → J → Option (Tup V)
  | .leaf, j => (dec j).map .leaf
  | .pair x y, j =>
    match rawArray 2 j with
    | some [some a, some b] =>
      match unmarshalTup dec x a, unmarshalTup dec y b with
      | some a, some b => some (.pair a b)
      | _, _ => none
    | _ => none
  | .trio x y z, j =>
    match rawArray 3 j with
    | some [some a, some b, some c] =>
      match unmarshalTup dec x a, unmarshalTup dec y b, unmarshalTup dec z c with
      | some a, some b, some c => some (.trio a b c)
      | _, _, _ => none
    | _ => none
  | .quad x y z w, j =>
    match rawArray 4 j with
    | some [some a, some b, some c, some d] =>
      match unmarshalTup dec x a, unmarshalTup dec y b, unmarshalTup dec z c, unmarshalTup dec w d with
      | some a, some b, some c, some d => some (.quad a b c d)
      | _, _, _, _ => none
    | _ => none

/-- `push` and `expand` (tuples.go:48-52,97-102,151-157,161-167): appends the values of a
possible tuple to a slice. -/
def Tup.push {V : Type} (acc : List V) : Tup V → List V
  | .leaf v => acc ++ [v]
  | .pair x y => y.push (x.push acc)
  | .trio x y z => z.push (y.push (x.push acc))
  | .quad x y z w => w.push (z.push (y.push (x.push acc)))

/-- `expand` (tuples.go:174-178). -/
def expand {V : Type} (t : Tup V) : List V := t.push []

/-- `branch` of `Values` (duplex.go:34-41), with the values so far. -/
def branch {T : Type} (add sub : T → T → T) : List T → T → List T → List T
  | [], val, acc => acc ++ [val]
  | d :: ds, val, acc => branch add sub ds (sub val d) (branch add sub ds (add val d) acc)

/-- `Duplex.Values` (duplex.go:31-44): panics on an empty number, for which the result is none. -/
def duplexValues {T : Type} (add sub : T → T → T) : List T → Option (List T)
  | [] => none
  | d :: ds => some (branch add sub ds d [])

/-- A `Maybe` is a reference to a map of at most one value (xyz.go:202); none is the nil map. -/
abbrev MaybeRef := Option Nat

/-- The maps (the `map[ok]T` of `xyz.go:202`). -/
structure Heap (T : Type) where
  /-- What is in each. -/
  at_ : Nat → Option T
  /-- The next free address. -/
  next : Nat

/-- `New` (xyz.go:210-214). -/
def maybeNew {T : Type} (h : Heap T) (v : T) : Heap T × MaybeRef :=
  ({ at_ := fun a => if a = h.next then some v else h.at_ a, next := h.next + 1 }, some h.next)

/-- `Get` (xyz.go:218-221). -/
def maybeGet {T : Type} (h : Heap T) : MaybeRef → Option T
  | none => none
  | some a => h.at_ a

/-- `clear` and the assignment (xyz.go:234,241-246). -/
def Heap.set {T : Type} (h : Heap T) (a : Nat) (v : Option T) : Heap T :=
  { h with at_ := fun b => if b = a then v else h.at_ b }

/-- `MarshalJSON` (xyz.go:224-229). -/
def maybeMarshal {T : Type} (enc : T → J) (h : Heap T) (o : MaybeRef) : J :=
  match maybeGet h o with
  | some v => enc v
  | none => .null

/-- `UnmarshalJSON` (xyz.go:232-248): the maps, the variable and whether there was no error. -/
def maybeUnmarshal {T : Type} (dec : J → Option T) (h : Heap T) (o : MaybeRef) (j : J) : Heap T × MaybeRef × Bool :=
  if j.isNull then
    match o with
    | none => (h, none, true)
    | some a => (h.set a none, o, true)
  else match dec j with
    | none => (h, o, false)
    | some v =>
      match o with
      | none => ((maybeNew h v).1, (maybeNew h v).2, true)
      | some a => (h.set a (some v), o, true)

end Verif.Xyz
