/-!
# Model of API functions (api/api.go:275-503)

Models `Function.Make`, `Copy`, `Call`, `In`, `NumIn`, `NumOut`, `MakeError` and `Return`, the linker of
`api/stub/stub.go`, and the part of `reflect` they rely on: `MakeFunc`, `Value.Call`, `Zero`, `ValueOf`,
`Interface` and assignability.

Simplifications: a type is what these functions ask of it (whether it is an interface, its identity and its
method names); assignability between different types with identical underlying types, which takes an
unnamed one, is left out; a Go function is a function from its arguments and the state of the rest of the program
to an outcome and a new state, where an outcome is a list of results or a panic (a call that never returns is
left out).
-/
namespace Verif.Api

/-- A `reflect.Type` other than a function type
(types as `Make`, `Call` and `NumOut` ask about them, `api/api.go:292-427`). -/
structure Ty where
  iface : Bool
  id : Nat
  methods : List Nat
deriving DecidableEq

/-- `error`: the interface with the method 0, `Error() string`
(`reflect.TypeOf((*error)(nil)).Elem()`, `api/api.go:313`). -/
def errorTy : Ty := ⟨true, 0, [0]⟩
/-- `context.Context`; its methods stand for one (`reflect.TypeOf([0]context.Context{}).Elem()`, `api/api.go:301`). -/
def contextTy : Ty := ⟨true, 1, [1]⟩
/-- `any` (`api/api.go:326-340`). -/
def anyTy : Ty := ⟨true, 2, []⟩
/-- `[]reflect.Value` (`api/api.go:298`). -/
def valuesTy : Ty := ⟨false, 0, []⟩
/-- `[]any` (`api/api.go:326`). -/
def anysTy : Ty := ⟨false, 1, []⟩
/-- `io.ReadCloser` (`api/stub/stub.go:44`). -/
def readCloserTy : Ty := ⟨true, 3, [2, 3]⟩

/-- `t.Implements(i)` (as used at `api/api.go:313`). -/
def Ty.implements (t i : Ty) : Bool := i.methods.all fun m => t.methods.contains m

/-- A value of an interface type: nil, or a value of a concrete type (`any` and `error`, `api/api.go:335-350`). -/
abbrev Dyn (X : Type) := Option (Ty × X)

/-- A `reflect.Value`: the zero Value, or a value of a static type. The content of a value of a concrete
type names that type again (`api/api.go:299-321`). -/
inductive RV (X : Type) where
  | invalid
  | mk (t : Ty) (d : Dyn X)
deriving DecidableEq

/-- A `reflect.Type` of kind Func. The last of the types `ins` of a variadic function is a slice; its element type
is `variadic`. An unnamed type has no `name` (`fn.Type`, `api/api.go:278`). -/
structure FT where
  name : Option Nat := none
  ins : List Ty := []
  outs : List Ty := []
  variadic : Option Ty := none
deriving DecidableEq

/-- `func(context.Context, []reflect.Value) ([]reflect.Value, error)` (api.go:298). -/
def genericT : FT := { ins := [contextTy, valuesTy], outs := [valuesTy, errorTy] }
/-- `func(context.Context, []any) ([]any, error)` (api.go:326). -/
def genericAnyT : FT := { ins := [contextTy, anysTy], outs := [anysTy, errorTy] }
/-- `func([]reflect.Value) []reflect.Value` (api.go:362). -/
def rawT : FT := { ins := [valuesTy], outs := [valuesTy] }

/-- What a Go call panics with: an error of the API, or one raised by the Go runtime or `reflect`
(`api/api.go:316`, `:352`). -/
inductive Panic (X : Type) where
  | err (e : Ty × X)
  | runtime
deriving DecidableEq

/-- How a Go call ends (Go semantics, for `api/api.go:299-445`). -/
inductive Res (X α : Type) where
  | ok (a : α)
  | panic (p : Panic X)
deriving DecidableEq

/-- Go code over a state `S` (Go semantics, for `api/api.go:299-445`). -/
abbrev M (S X α : Type) := S → Res X α × S

/-- Go code that does nothing but return (Go semantics, for `api/api.go:299-445`). -/
def ret {S X α : Type} (a : α) : M S X α := fun s => (.ok a, s)
/-- Go code that panics (Go semantics, for `api/api.go:316`). -/
def die {S X α : Type} (p : Panic X) : M S X α := fun s => (.panic p, s)
/-- Sequence; a panic ends it (Go semantics, for `api/api.go:299-445`). -/
def andThen {S X α β : Type} (m : M S X α) (k : α → M S X β) : M S X β := fun s =>
  match m s with
  | (.ok a, s') => k a s'
  | (.panic p, s') => (.panic p, s')

/-- A function value of some function type (`fn.Impl`, `api/api.go:283`). -/
abbrev Code (S X : Type) := List (RV X) → M S X (List (RV X))

/-- What the model leaves to the program: zero values of concrete types, how slices are values, the background
context, the errors, and an empty reader. A slice is nil or a list (the program around `api/api.go:292-503`). -/
structure Sys (X : Type) where
  zero : Ty → X
  packAnys : Option (List (Dyn X)) → X
  unpackAnys : X → Option (List (Dyn X))
  packValues : Option (List (RV X)) → X
  unpackValues : X → Option (List (RV X))
  packSlice : List (Dyn X) → X
  background : Ty × X
  notImplemented : Ty × X
  wrongType : Ty × X
  reader : Ty × X

section
variable {S X : Type} (sys : Sys X)

/-- `reflect.ValueOf` (as used at `api/api.go:314`, `:340`). -/
def valueOf : Dyn X → RV X
  | none => .invalid
  | some c => .mk c.1 (some c)

/-- `reflect.Zero` (as used at `api/api.go:309`). -/
def zeroOf (t : Ty) : RV X := if t.iface then .mk t none else .mk t (some (t, sys.zero t))

/-- `Value.assignTo`: the same type, or a type that implements an interface. None is a panic
(in `reflect.MakeFunc` and `Value.Call`, `api/api.go:299`, `:395`). -/
def assign : RV X → Ty → Option (RV X)
  | .invalid, _ => none
  | .mk t d, u => if t = u then some (.mk t d) else
      if u.iface && t.implements u then some (.mk u d) else none

/-- Each value is assigned; none if there are not as many or one can not be
(in `reflect.MakeFunc` and `Value.Call`, `api/api.go:299`, `:395`). -/
def assignAll : List (RV X) → List Ty → Option (List (RV X))
  | [], [] => some []
  | v :: vs, t :: ts =>
    match assign v t, assignAll vs ts with
    | some w, some ws => some (w :: ws)
    | _, _ => none
  | _, _ => none

/-- `reflect.MakeFunc`: the results of the function must be assignable to the results of the type
(as used at `api/api.go:299`). -/
def makeFunc (ft : FT) (f : Code S X) : Code S X := fun args =>
  andThen (f args) fun rs =>
    match assignAll rs ft.outs with
    | some rs => ret rs
    | none => die .runtime

/-- The content of a value, `Value.Interface()` (as used at `api/api.go:335`, `:396`). -/
def content : RV X → Dyn X
  | .invalid => none
  | .mk _ d => d

/-- The arguments `Value.Call` passes to the function: assigned to the types of the parameters, and for a variadic
function those from the last parameter on packed into a slice. None is a panic (as used at `api/api.go:395`). -/
def callArgs (ft : FT) (args : List (RV X)) : Option (List (RV X)) :=
  match ft.variadic with
  | none => assignAll args ft.ins
  | some elem =>
    let n := ft.ins.length - 1
    match assignAll (args.take n) (ft.ins.take n), ft.ins.getLast? with
    | some fixed, some slice =>
      if args.length < n then none else
      match assignAll (args.drop n) ((args.drop n).map fun _ => elem) with
      | some more => some (fixed ++ [.mk slice (some (slice, sys.packSlice (more.map content)))])
      | none => none
    | _, _ => none

/-- `Value.Call` (as used at `api/api.go:395`, `:401`). -/
def reflectCall (ft : FT) (code : Code S X) (args : List (RV X)) : M S X (List (RV X)) :=
  match callArgs sys ft args with
  | some args => code args
  | none => die .runtime

/-- `fn.Type.NumIn() > 0 && fn.Type.In(0) == context.Context` (api.go:391,411). -/
def FT.takesContext (ft : FT) : Bool :=
  match ft.ins with
  | t :: _ => t = contextTy
  | [] => false

/-- `fn.Type.NumOut() > 0 && fn.Type.Out(fn.Type.NumOut()-1).Implements(error)` (api.go:313,349,394,421). -/
def FT.hasError (ft : FT) : Bool :=
  match ft.outs.getLast? with
  | some t => t.implements errorTy
  | none => false

/-- `Function.NumIn` (api.go:410-415). -/
def FT.numIn (ft : FT) : Nat := if ft.takesContext then ft.ins.length - 1 else ft.ins.length

/-- `Function.In` (api.go:404-406); none is a panic. -/
def FT.in (ft : FT) (i : Nat) : Option Ty := ft.ins[i + (ft.ins.length - ft.numIn)]?

/-- `Function.NumOut` (api.go:419-425). -/
def FT.numOut (ft : FT) : Nat := if ft.hasError then ft.outs.length - 1 else ft.outs.length

/-- `reflect.Zero(fn.Type.Out(fn.Type.NumOut()-1))` (api.go:320,356). -/
def lastZero (ft : FT) : List (RV X) :=
  match ft.outs.getLast? with
  | some t => [zeroOf sys t]
  | none => []

/-- What `Make` does with the results and the error of a generic implementation (api.go:306-322,342-358); the
results are nil or a list. -/
def finish (ft : FT) (results : Option (List (RV X))) (err : Dyn X) : M S X (List (RV X)) :=
  let results := results.getD ((ft.outs.take ft.numOut).map (zeroOf sys))
  match err with
  | some e => if ft.hasError then ret (results ++ [valueOf (some e)]) else die (.err e)
  | none => if ft.hasError then ret (results ++ lastZero sys ft) else ret results

/-- A generic implementation: context and arguments to results and error (`api/api.go:298`). -/
abbrev Generic (S X : Type) := Dyn X → List (RV X) → M S X (Option (List (RV X)) × Dyn X)
/-- A generic implementation over `any` (`api/api.go:326`). -/
abbrev GenericAny (S X : Type) := Dyn X → List (Dyn X) → M S X (Option (List (Dyn X)) × Dyn X)

/-- The context and the other arguments (api.go:300-304,328-332). A nil context panics in the type assertion. -/
def splitArgs (args : List (RV X)) : Option (Dyn X × List (RV X)) :=
  match args with
  | .mk t d :: rest => if t = contextTy then d.map (fun c => (some c, rest)) else some (some sys.background, args)
  | _ => some (some sys.background, args)

/-- `Make` with a generic implementation (api.go:298-323). -/
def makeGeneric (ft : FT) (f : Generic S X) : Code S X := makeFunc ft fun args =>
  match splitArgs sys args with
  | none => die .runtime
  | some (ctx, args) => andThen (f ctx args) fun r => finish sys ft r.1 r.2

/-- `Make` with a generic implementation over `any` (api.go:326-361). The results are made from the length of the list,
so they are never nil. -/
def makeGenericAny (ft : FT) (f : GenericAny S X) : Code S X := makeFunc ft fun args =>
  match splitArgs sys args with
  | none => die .runtime
  | some (ctx, args) => andThen (f ctx (args.map content)) fun r =>
      finish sys ft (some ((r.1.getD []).map valueOf)) r.2

/-- What `Make` is given, by the cases of its type switch (api.go:297-365). -/
inductive Impl (S X : Type) where
  | generic (f : Generic S X)
  | genericAny (f : GenericAny S X)
  | raw (f : Code S X)
  | typed (ft : FT) (code : Option (Code S X))

/-- Go code that returns two values, of which the first is a slice and the second an error
(`api/api.go:298`, `:326`). -/
def asPair {α : Type} (unpack : X → Option α) (rs : List (RV X)) : M S X (Option α × Dyn X) :=
  match rs with
  | [.mk _ (some (_, x)), .mk _ e] => ret (unpack x, e)
  | _ => die .runtime

/-- The type switch on a function value (api.go:297-365): one whose type is one of the generic types is taken for a
generic implementation, even if that is the type of the API's function. A nil function is called, which panics. -/
def Impl.ofValue (ft : FT) (code : Option (Code S X)) : Impl S X :=
  let run : Code S X := fun args => match code with | some c => c args | none => die .runtime
  if ft = genericT then .generic fun ctx args =>
    andThen (run [.mk contextTy ctx, .mk valuesTy (some (valuesTy, sys.packValues (some args)))])
      (asPair sys.unpackValues)
  else if ft = genericAnyT then .genericAny fun ctx args =>
    andThen (run [.mk contextTy ctx, .mk anysTy (some (anysTy, sys.packAnys (some args)))])
      (asPair sys.unpackAnys)
  else if ft = rawT then .raw fun args =>
    andThen (run [.mk valuesTy (some (valuesTy, sys.packValues (some args)))]) fun
      | [.mk _ (some (_, x))] => ret ((sys.unpackValues x).getD [])
      | _ => die .runtime
  else .typed ft code

/-- The value `MakeError` makes the function of (api.go:430-446). -/
def errorCode (ft : FT) (e : Dyn X) : Code S X := makeFunc ft fun _ =>
  if ft.hasError then ret (((ft.outs.take (ft.outs.length - 1)).map (zeroOf sys)) ++ [valueOf e])
  else match e with
    | some e => die (.err e)
    | none => die .runtime

/-- `Make` with what is not a function of another type (api.go:293-371). -/
def makeKnown (ft : FT) : Impl S X → Option (Code S X)
  | .generic f => some (makeGeneric sys ft f)
  | .genericAny f => some (makeGenericAny sys ft f)
  | .raw f => some (makeFunc ft f)
  | .typed _ code => code

/-- `Function.MakeError` (api.go:430-446): it goes through `Make`, with a function of the right type. -/
def makeError (ft : FT) (e : Dyn X) : Option (Code S X) :=
  makeKnown sys ft (Impl.ofValue sys ft (some (errorCode sys ft e)))

/-- `Function.Make` (api.go:292-373): the function the field of the API holds afterwards. -/
def make (ft : FT) (impl : Impl S X) : Option (Code S X) :=
  match impl with
  | .typed ft' code => if ft' = ft then code else makeError sys ft (some sys.wrongType)
  | impl => makeKnown sys ft impl

/-- `Function.Call` (api.go:387-402) of a function field, which may be nil. -/
def call (ft : FT) (impl : Option (Code S X)) (ctx : Dyn X) (args : List (RV X)) :
    M S X (Option (List (RV X)) × Dyn X) :=
  match impl with
  | none => ret (none, some sys.notImplemented)
  | some code =>
    andThen (reflectCall sys ft code (if ft.takesContext then valueOf ctx :: args else args)) fun rs =>
      if ft.hasError then
        match rs.getLast? with
        | some v =>
          match content v with
          | some e => ret (none, some e)
          | none => ret (some rs.dropLast, none)
        | none => die .runtime
      else ret (if rs = [] then none else some rs, none)

/-- `Function.Return` (api.go:485-503). -/
def returnResults (ft : FT) (results : Option (List (RV X))) (err : Dyn X) : M S X (List (RV X)) :=
  let rs := results.getD (ft.outs.map (zeroOf sys))
  let rs := rs ++ (List.replicate (ft.outs.length - rs.length) (lastZero sys ft)).flatten
  match err with
  | none => ret rs
  | some e => if ft.hasError then ret (rs.set (ft.outs.length - 1) (valueOf (some e))) else die (.err e)

/-- What a Go caller of a function field sees, `Example.Fn(args...)`: a nil function panics
(a call of the field that `Make` sets, `api/api.go:299`). -/
def invoke (impl : Option (Code S X)) (args : List (RV X)) : M S X (List (RV X)) :=
  match impl with
  | some code => code args
  | none => die .runtime

/-- The results the stub linker prepares (stub.go:41-52). -/
def stubResults (ft : FT) (err : Dyn X) : List (RV X) :=
  let rs := ft.outs.map fun t => if t = readCloserTy then valueOf (some sys.reader) else zeroOf sys t
  if ft.hasError && err.isSome then rs.set (ft.outs.length - 1) (valueOf err) else rs

/-- `linker.stub` (stub.go:40-60). -/
def stub (ft : FT) (err : Dyn X) : Option (Code S X) :=
  make sys ft (Impl.ofValue sys ft (some (makeFunc ft fun _ =>
    match err with
    | some e => if ft.hasError then ret (stubResults sys ft err) else die (.err e)
    | none => ret (stubResults sys ft err))))

end
end Verif.Api
