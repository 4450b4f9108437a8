/-!
# Model of remote functions (rpc/rpc.go)

A function that is registered is a Go function of two arguments, such as a method expression `HelloWorld.Func`; its code is
a function from the two arguments to a name and a closure. What `encoding/json` does to the arguments of a call is a
parameter (`decode`), whose error is ignored as in the code. Types are what `reflect` compares.
-/
namespace Verif.Rpc

/-- A text (rpc.go:72). -/
abbrev Str := List Char

/-- A `reflect.Type`: a named type that is not an interface, the type `any`, an interface with methods, or a pointer
(`rpc.go:93-97`). -/
inductive Ty where
  | named (n : Nat)
  | any
  | iface (n : Nat)
  | ptr (t : Ty)
deriving DecidableEq, Repr

/-- May a value of the first type be passed where `reflect` wants the second (`Value.Call`)? A pointer to a type has none
of the methods an interface here asks for, unless it is a pointer to a named type (`methods n` are the interfaces that
pointers to it implement). Types that are recursive, such as `type P *P`, are left out (`rpc.go:97, 148-160`). -/
def assignable (methods : Nat → List Nat) : Ty → Ty → Bool
  | _, .any => true
  | .ptr (.named n), .iface i => (methods n).contains i
  | a, b => a = b

/-- The type of a function of two arguments: the receiver, the runtime, and the result after the name, if it has one.
Functions of other types are registered like any other value (`rpc.go:96-103`). -/
structure FTy where
  recv : Ty
  api : Ty
  out : Option Ty
deriving DecidableEq, Repr

/-- A Go value as `Register` is given it: a function of the kind above, or anything else, for instance a runtime
(`rpc.go:92-96`). -/
inductive Value (V R : Type) where
  | fn (t : FTy) (code : V → V → Str × R)
  | other (t : Ty) (v : V)

/-- `Transport` (rpc.go:66-69): `values` by type, for functions and for other values; `byname`. Later entries are in
front. -/
structure Transport (V R : Type) where
  fns : List (FTy × (V → V → Str × R)) := []
  others : List (Ty × V) := []
  byname : List (Str × FTy) := []

/-- A Go map, as the list of what was put into it, latest first (rpc.go:66-69, 76). -/
def lookup {K A : Type} [DecidableEq K] (m : List (K × A)) (k : K) : Option A :=
  match m with
  | [] => none
  | (k', a) :: rest => if k' = k then some a else lookup rest k

/-- The global list of what can be called (rpc.go:71-77): the name and the receiver type, by the type of the closure. -/
abbrev Global := List (Ty × List (Str × Ty))

/-- `global[t]` (rpc.go:103, 119). -/
def Global.get (g : Global) (t : Ty) : List (Str × Ty) := (lookup g t).getD []

/-- `Register` (rpc.go:92-106). `zero` gives zero values. `none` is a panic: a function that returns only the name has no
second result to look at (rpc.go:103). -/
def register {V R : Type} (zero : Ty → V) (t : Transport V R) (g : Global) : Value V R → Option (Transport V R × Global)
  | .other ty v => some ({ t with others := (ty, v) :: t.others }, g)
  | .fn ft code =>
    let name := (code (zero ft.recv) (zero ft.api)).1
    match ft.out with
    | none => none
    | some out =>
      some ({ t with fns := (ft, code) :: t.fns, byname := (name, ft) :: t.byname },
        (out, g.get out ++ [(name, ft.recv)]) :: g)

/-- `New` (rpc.go:80-89), and what is registered afterwards. -/
def registerAll {V R : Type} (zero : Ty → V) : Transport V R → Global → List (Value V R) → Option (Transport V R × Global)
  | t, g, [] => some (t, g)
  | t, g, v :: vs => (register zero t g v).bind fun p => registerAll zero p.1 p.2 vs

/-- The end of a call: the zero value of `T`, a panic, or the closure (rpc.go:138-160). -/
inductive Outcome (R : Type) where
  | zero
  | panic
  | closure (r : R)

/-- The function and the runtime that `Call` finds (rpc.go:139-153). -/
def resolve {V R : Type} (t : Transport V R) (T : Ty) (name : Str) : Option ((FTy × (V → V → Str × R)) × V) :=
  if name = [] then none
  else
    match lookup t.byname name with
    | none => none
    | some ft =>
      if ft.out = some T then
        match lookup t.fns ft with
        | none => none
        | some code => (lookup t.others ft.api).map fun api => ((ft, code), api)
      else none

/-- `Any[T].Call` (rpc.go:138-160). `alloc` is the pointer to a new variable that `json.Unmarshal` has filled from the
arguments: `reflect.New(rtype.In(0))`, which is what is passed as the receiver. -/
def call {V R A : Type} (methods : Nat → List Nat) (alloc : Ty → A → V) (t : Transport V R) (T : Ty) (name : Str) (args : A) :
    Outcome R :=
  match resolve t T name with
  | none => .zero
  | some ((ft, code), api) =>
    if assignable methods (.ptr ft.recv) ft.recv then .closure (code (alloc ft.recv args) api).2 else .panic

/-- `TypesJSON` (rpc.go:115-134): the name and the type of the arguments of each. -/
def typesJSON (g : Global) (T : Ty) : List (Str × Ty) := g.get T

end Verif.Rpc
