/-!
# zgo assignments: model

`StatementAssignment` (`zgo/internal/target/zigc/assignment.go:13-137`), with the part of `VariableDefinition`
(`definitions.go:164-245`) it uses and the semicolon of `Statement` (`statements.go:46-54`). The text is modelled as
the fragments that are written, one after the other with nothing between them. Expressions are of any type; what they
evaluate to and do is a parameter of the semantics. Boxing of interfaces (`assignment.go:114-131`) and array elements
are left out; so is whether an operator takes the operands' type (C166).
-/
namespace Verif.Zgo.Asg

/-- The operators of assignments (`go/token`, printed at `assignment.go:113`). -/
inductive AOp
  | add | sub | mul | quo | rem | and | or | xor | shl | shr | andNot
  deriving DecidableEq, Repr

/-- The token of the statement (`source.StatementAssignment.Token`): `:=`, `=`, `op=`. -/
inductive Tok
  | define
  | set
  | op (o : AOp)
  deriving DecidableEq, Repr

/-- What stands on the left (`assignment.go:17-31`, `:52-112`): a variable, `_`, `*p`, an element of a map with string
keys or of another map, an element of a slice. -/
inductive Left (E : Type)
  | var (x : Nat)
  | blank
  | star (p : E)
  | smap (m k : E)
  | map (m k : E)
  | elem (s i : E)
  deriving DecidableEq, Repr

/-- What is written. -/
inductive Frag (E : Type)
  /-- `go.use(e)` -/
  | use (e : E)
  /-- `var x: T = e;x=x` -/
  | define (x : Nat) (e : E)
  /-- `x op= e`, or `x = e` -/
  | assign (x : Nat) (o : Option AOp) (e : E)
  /-- `p.set(e)` -/
  | ptrSet (p e : E)
  /-- `m.set(goto,k, e)` -/
  | smapSet (m k e : E)
  /-- `go.runtime.map_set(K, V,m, k, e)` -/
  | mapSet (m k e : E)
  /-- `s.index(i) op= e` -/
  | elemSet (s i e : E)
  deriving DecidableEq, Repr

/-- What becomes of a statement: the compiler panics, returns an error, or writes. -/
inductive Outcome (E : Type)
  | crash
  | error
  | text (fs : List (Frag E))
  deriving DecidableEq, Repr

variable {E : Type}

/-- What is written before the rest. -/
def Outcome.after (f : Frag E) : Outcome E → Outcome E
  | .text fs => .text (f :: fs)
  | o => o

/-- The first loop of a definition (`assignment.go:16-33`): `_` is written at once, other variables are collected. -/
def defineBlanks (values : List E) : Nat → List (Left E) → Option (List (Frag E) × List Nat)
  | _, [] => some ([], [])
  | i, .var x :: vs => (defineBlanks values (i + 1) vs).map fun r => (r.1, x :: r.2)
  | i, .blank :: vs =>
    match values[i]?, defineBlanks values (i + 1) vs with
    | some e, some r => some (.use e :: r.1, r.2)
    | _, _ => none
  | _, _ :: _ => none

/-- The second loop (`assignment.go:34-50`): the variables collected, each with the value at its own index. -/
def defineNames (values : List E) : Nat → List Nat → Option (List (Frag E))
  | _, [] => some []
  | i, x :: xs =>
    match values[i]?, defineNames values (i + 1) xs with
    | some e, some fs => some (.define x e :: fs)
    | _, _ => none

/-- The operator that is printed (`assignment.go:113`). -/
def Tok.oper : Tok → Option AOp
  | .op o => some o
  | _ => none

/-- The loop over the variables (`assignment.go:52-136`). A map returns from the function. -/
def assignAll (tok : Tok) (values : List E) : Nat → List (Left E) → Outcome E
  | _, [] => .text []
  | i, v :: vs =>
    match values[i]? with
    | none => .crash
    | some e =>
      match v with
      | .star p => (assignAll tok values (i + 1) vs).after (.ptrSet p e)
      | .smap m k => .text [.smapSet m k e]
      | .map m k => .text [.mapSet m k e]
      | .elem s j => (assignAll tok values (i + 1) vs).after (.elemSet s j e)
      | .blank => (assignAll tok values (i + 1) vs).after (.use e)
      | .var x => (assignAll tok values (i + 1) vs).after (.assign x tok.oper e)

/-- `StatementAssignment` (`assignment.go:13-137`). A value that is not there is an index out of range
(`assignment.go:22`, `:37`, `:42`, `:61`, ...). -/
def compile (tok : Tok) (vars : List (Left E)) (values : List E) : Outcome E :=
  match tok with
  | .define =>
    if vars.any (fun | .var _ => false | .blank => false | _ => true) then .error
    else
      match defineBlanks values 0 vars with
      | none => .crash
      | some r =>
        match defineNames values 0 r.2 with
        | none => .crash
        | some fs => .text (r.1 ++ fs)
  | _ => assignAll tok values 0 vars

/-- Whether Zig accepts one fragment: `&^=` is not a token of Zig, `go.runtime.map_set` is not in
`build_runtime.zig`, and a call (`expressions.go:113-121`) cannot be assigned to. -/
def Frag.valid : Frag E → Bool
  | .assign _ (some .andNot) _ => false
  | .mapSet .. => false
  | .elemSet .. => false
  | _ => true

/-- Whether Zig accepts the statement: fragments with nothing between them are no statement, and only the last is
followed by a semicolon (`statements.go:52`). -/
def accepted : Outcome E → Option (Frag E)
  | .text [f] => if f.valid then some f else none
  | _ => none

end Verif.Zgo.Asg
