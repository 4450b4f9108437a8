import Verif.Api.StructModel
/-!
# Model of documentation by examples (`api/doc.go`)

`TestingFramework`, `Example.trace`, `Documentation.Example`, `Documentation.Examples` and `Test`. Values and functions
are left abstract: a function is a number, a value is of any type. An example is the tree of what it does: the calls of
traced functions with the calls that are made inside them, notes and setups. What a function returns is part of the tree,
so that the theorems are about all implementations; so is that a call panics, after which anything may happen (the
implementation that called it may recover).

Left out: the categories of examples (the names of source files), the titles and stories, and that `Example` panics for
examples that are not pointers to structs.
-/
namespace Verif.Api.Example
open Verif.Api

/-- A call as a step has it (`api/doc.go:103-112`, without the note). -/
structure Call (V : Type) where
  fn : Nat
  args : List V
  vals : List V
  err : Option V
  depth : Nat
  setup : Bool

/-- `Step` (`api/doc.go:103-112`); there is no call as long as `Call` is nil. -/
structure Step (V : Type) where
  note : Str
  call : Option (Call V)

mutual
/-- What an example does, in order (`api/doc.go:134-154`, `:160-181`). -/
inductive Acts (V : Type) where
  | nil
  | cons (a : Act V) (rest : Acts V)
/-- One thing that an example does. -/
inductive Act (V : Type) where
  /-- `Guide` (`api/doc.go:145-154`). -/
  | guide (note : Str)
  /-- `Setup` with what its function does (`api/doc.go:134-143`). -/
  | setup (inner : Acts V)
  /-- A traced function, with what it does and what it returns; `none` if it panics (`api/doc.go:160-181`). -/
  | call (fn : Nat) (args : List V) (inner : Acts V) (result : Option (List V × Option V))
end

/-- The unexported part of `Example` and its steps (`api/doc.go:90-101`). -/
structure State (V : Type) where
  steps : List (Step V)
  depth : Nat
  setup : Bool

/-- `Guide` (`api/doc.go:145-154`). -/
def guide {V : Type} (note : Str) (steps : List (Step V)) : List (Step V) :=
  match steps with
  | [] => [⟨note, none⟩]
  | first :: rest => if first.note = [] then { first with note := note } :: rest else (first :: rest) ++ [⟨note, none⟩]

/-- The end of a traced call (`api/doc.go:166-179`). -/
def record {V : Type} (c : Call V) : List (Step V) → List (Step V)
  | [] => [⟨[], some c⟩]
  | [last] =>
    match last.call with
    | none => [{ last with call := some c }]
    | some _ => [last, ⟨[], some c⟩]
  | s :: t :: rest => s :: record c (t :: rest)

mutual
/-- The actions one after the other (`api/doc.go:134-181`). -/
def runs {V : Type} : Acts V → State V → State V
  | .nil, st => st
  | .cons a rest, st => runs rest (run a st)
/-- An action (`api/doc.go:134-181`). -/
def run {V : Type} : Act V → State V → State V
  | .guide note, st => { st with steps := guide note st.steps }
  | .setup inner, st => { runs inner { st with setup := true } with setup := false }
  | .call fn args inner result, st =>
    let st := runs inner { st with depth := st.depth + 1 }
    match result with
    | none => { st with depth := st.depth - 1 }
    | some (vals, err) =>
      { st with steps := record ⟨fn, args, vals, err, st.depth, st.setup⟩ st.steps, depth := st.depth - 1 }
end

/-- The steps of an example (`api/doc.go:18-66`). -/
def steps {V : Type} (acts : Acts V) : List (Step V) := (runs acts ⟨[], 0, false⟩).steps

/-- How an example ends (`api/doc.go:54-64`). -/
inductive End where
  | ok
  | error
  | panic
deriving DecidableEq

/-- The methods of the examples: their names, and how they end if they have the type of an example
(`api/doc.go:34`, `:49-52`, `:80-84`). -/
abbrev Methods := List (Str × Option End)

/-- `strings.SplitN(name, ":", 2)[1]`, for names with a colon (`api/doc.go:29-33`). -/
def afterColon : Str → Option Str
  | [] => none
  | c :: s => if c = ':' then some s else afterColon s

/-- `MethodByName` (`api/doc.go:34`). -/
def find (name : Str) : Methods → Option (Option End)
  | [] => none
  | (n, m) :: rest => if n = name then some m else find name rest

/-- `Documentation.Example` (`api/doc.go:18-66`): whether there is an example of that name, and how it ended. The examples
are those of `fn(ctx)`, if it returns no error. -/
def exampleOf (fn : Option Methods) (name : Str) : Option End :=
  match fn with
  | none => some .error
  | some ms =>
    match find ((afterColon name).getD name) ms with
    | some (some e) => some e
    | _ => none

/-- `Documentation.Examples` (`api/doc.go:68-91`): the names of the examples, in the order of their methods. -/
def examplesOf (ms : Methods) : List Str := (ms.filter (·.2.isSome)).map (·.1)

/-- `Test` (`api/doc.go:204-217`): the examples that are reported as failed; `none` if the test ends at once. -/
def test (fn : Option Methods) : Option (List Str) :=
  match fn with
  | none => none
  | some ms =>
    some ((examplesOf ms).filter fun name =>
      match exampleOf fn name with
      | some .error | some .panic => true
      | _ => false)

end Verif.Api.Example
