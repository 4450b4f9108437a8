import Verif.Zgo.CallModel
/-!
# zgo calls: specification

What a call does in Go: the receiver and the arguments are evaluated once, first to last, then the function is called
with them, the arguments of a variadic parameter as a slice; a `go` statement starts the function and goes on. What
the text does in Zig. Both as a list of events, where what evaluating an expression does is a parameter.
-/
namespace Verif.Zgo.Call.Spec
open Verif.Zgo.Call

/-- A parameter of the function that is called: an expression's value, or a slice of several. -/
inductive Passed (E : Type)
  | one (e : E)
  | many (es : List E)

/-- What is called. -/
inductive Target
  | func (f : Nat)
  | method (f : Nat)
  | local (x : Nat)
  | other

/-- What happens. -/
inductive Ev (E A : Type)
  | eval (a : A)
  | called (t : Target) (ps : List (Passed E))
  | spawned (t : Target) (ps : List (Passed E))

variable {E A : Type}

/-- The receiver, if there is one. -/
def recv : Callee E → List E
  | .method _ e | .imethod _ e => [e]
  | _ => []

/-- What the function is. -/
def target : Callee E → Target
  | .func f => .func f
  | .method f _ => .func f
  | .imethod f _ => .method f
  | .local x => .local x
  | _ => .other

/-- The parameters of the function. -/
def passed (c : Call E) : List (Passed E) :=
  (recv c.callee).map .one ++
    (if c.variadic then (c.args.take (c.params - 1)).map .one ++ [.many (c.args.drop (c.params - 1))] else c.args.map .one)

/-- Go. -/
def goTrace (evs : E → List A) (c : Call E) : List (Ev E A) :=
  ((recv c.callee ++ c.args).flatMap evs).map .eval ++
    [if c.isGo then .spawned (target c.callee) (passed c) else .called (target c.callee) (passed c)]

/-- What evaluating an argument does in Zig. -/
def itemEvs (evs : E → List A) : Item E → List A
  | .routine => []
  | .expr e | .value e => evs e
  | .rest _ es => es.flatMap evs

/-- What it passes; the routine is Zig's own. -/
def itemPassed : Item E → List (Passed E)
  | .routine => []
  | .expr e | .value e => [.one e]
  | .rest _ es => [.many es]

/-- Zig. -/
def zigTrace (evs : E → List A) (h : Head E) (is : List (Item E)) : List (Ev E A) :=
  let ps := is.flatMap itemPassed
  let before := (match h with | .itype e _ => evs e | _ => []) ++ is.flatMap (itemEvs evs)
  before.map .eval ++ [match h with
    | .plain f => .called (.func f) ps
    | .call x => .called (.local x) ps
    | .go x => .spawned (.local x) ps
    | .itype _ f => .called (.method f) ps
    | .paren => .called .other ps]

/-- What Go's compiler accepts: an argument for every parameter, none or more for a variadic one, a variadic function
has a parameter, and dots only follow the one argument of a variadic parameter. -/
def WellFormed (c : Call E) : Prop :=
  (c.variadic = true → 1 ≤ c.params ∧ c.params - 1 ≤ c.args.length) ∧
  (c.variadic = false → c.args.length = c.params) ∧
  (c.dots = true → c.variadic = true ∧ c.args.length = c.params)

end Verif.Zgo.Call.Spec
