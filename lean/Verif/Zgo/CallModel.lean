/-!
# zgo calls: model

`FunctionCall` and `StatementGo` (`zgo/internal/target/zigc/function_call.go:11-186`). The text is modelled as what is
called and the tokens between the parentheses; a reader of Zig's argument lists follows. Builtin functions
(`function_call.go:25-48`) are not calls here, and conversions to interfaces (`:112-126`) are left out.
-/
namespace Verif.Zgo.Call

/-- What is called (`function_call.go:23-140`), `E` being the expressions. -/
inductive Callee (E : Type)
  /-- A function of a package, this or another (`:49-56`, `:101-109`). -/
  | func (f : Nat)
  /-- A method of a named type (`:82-100`). -/
  | method (f : Nat) (recv : E)
  /-- A method of an interface (`:70-81`). -/
  | imethod (f : Nat) (recv : E)
  /-- A variable of the function (`:57-64`). -/
  | local (x : Nat)
  /-- A variable of the package (`:57-64`). -/
  | global (x : Nat)
  /-- A field that is a function (`:106-109`). -/
  | field (e : E)
  /-- A function literal (`:133-136`). -/
  | lit (n : Nat)
  /-- A conversion to a type that is no interface (`:127-130`). -/
  | conv (t : Nat)
  deriving DecidableEq, Repr

/-- A call in the source (`source.FunctionCall`): the parentheses around the function, how many parameters it has and
whether the last is variadic, the arguments, whether the last is followed by dots, and whether it is a `go` statement. -/
structure Call (E : Type) where
  callee : Callee E
  parens : Nat
  params : Nat
  variadic : Bool
  args : List E
  dots : Bool
  isGo : Bool
  deriving Repr

/-- What is written between the parentheses (`function_call.go:147-184`). -/
inductive Tok (E : Type)
  | goto
  | null
  | comma
  | expr (e : E)
  /-- `e.value` -/
  | value (e : E)
  /-- `go.variadic(n, T, .{` -/
  | vopen (n : Nat)
  /-- `})` -/
  | vclose
  /-- `.{}` -/
  | tuple0
  deriving DecidableEq, Repr

variable {E : Type}

/-- The loop over the arguments and what follows it (`function_call.go:161-179`). -/
def emitArgs (params : Nat) (v : Bool) (total : Nat) : Nat → Bool → List E → List (Tok E)
  | _, seen, [] => if v then (if seen then [.vclose] else [.tuple0]) else []
  | i, seen, a :: as =>
    if !seen && (v && decide (params - 1 ≤ i)) then
      .comma :: .vopen (total + 1 - params) :: .expr a :: emitArgs params v total (i + 1) true as
    else .comma :: .expr a :: emitArgs params v total (i + 1) seen as

/-- The arguments of a call (`function_call.go:161-179`). -/
def Call.emit (c : Call E) : List (Tok E) := emitArgs c.params c.variadic c.args.length 0 false c.args

/-- How what is called is written, and how its parentheses start (`function_call.go:49-160`). -/
inductive Head (E : Type)
  /-- `f(` -/
  | plain (f : Nat)
  /-- `x.call(.{` -/
  | call (x : Nat)
  /-- `x.go(.{` -/
  | go (x : Nat)
  /-- `e.itype.f(` -/
  | itype (e : E) (f : Nat)
  /-- A value of a function type followed by `(`. -/
  | paren
  deriving DecidableEq, Repr

/-- `FunctionCall` (`function_call.go:15-186`); `none` is an error, or `@as(T)` (`:128`), which is not Zig. The dots
after the last argument are not looked at. -/
def compile (c : Call E) : Option (Head E × List (Tok E)) :=
  if 2 ≤ c.parens then none
  else match c.callee with
    | .func f => some (.plain f, .goto :: c.emit)
    | .method f e => some (.plain f, .goto :: .comma :: .expr e :: c.emit)
    | .imethod f e => some (.itype e f, .goto :: .comma :: .value e :: c.emit)
    | .local x => if c.isGo then some (.go x, .null :: c.emit) else some (.call x, .goto :: c.emit)
    | .global _ => some (.paren, .goto :: c.emit)
    | .field _ => some (.paren, .goto :: c.emit)
    | .lit _ => some (.paren, .goto :: c.emit)
    | .conv _ => none

/-- An argument as Zig reads it. -/
inductive Item (E : Type)
  | routine
  | expr (e : E)
  | value (e : E)
  | rest (n : Nat) (es : List E)
  deriving DecidableEq, Repr

/-- Zig's argument lists: expressions with commas between them (`function_call.go:147-184` writes them); `open` holds
what was read of a `go.variadic`. -/
def items : Option (Nat × List E) → List (Tok E) → Option (List (Item E))
  | none, [.goto] => some [.routine]
  | none, .goto :: .comma :: ts => (items none ts).map (.routine :: ·)
  | none, [.null] => some [.routine]
  | none, .null :: .comma :: ts => (items none ts).map (.routine :: ·)
  | none, [.expr e] => some [.expr e]
  | none, .expr e :: .comma :: ts => (items none ts).map (.expr e :: ·)
  | none, [.value e] => some [.value e]
  | none, .value e :: .comma :: ts => (items none ts).map (.value e :: ·)
  | none, .vopen n :: ts => items (some (n, [])) ts
  | some (n, es), .expr e :: .comma :: ts => items (some (n, es ++ [e])) ts
  | some (n, es), [.expr e, .vclose] => some [.rest n (es ++ [e])]
  | some (n, es), .expr e :: .vclose :: .comma :: ts => (items none ts).map (.rest n (es ++ [e]) :: ·)
  | _, _ => none

/-- An array of `n` elements is written with `n` values. -/
def Item.fits : Item E → Bool
  | .rest n es => n == es.length
  | _ => true

/-- What Zig's compiler makes of a call: a value of a struct type cannot be called (`build_runtime.zig:342-367`), and a
slice is no element of a slice, so a last argument with dots does not fit `go.variadic` (`build_runtime.zig:148-153`). -/
def accepted (c : Call E) : Option (Head E × List (Item E)) :=
  match compile c with
  | some (.paren, _) => none
  | some (h, ts) =>
    match items none ts with
    | some is => if is.all Item.fits && !c.dots then some (h, is) else none
    | none => none
  | none => none

end Verif.Zgo.Call
