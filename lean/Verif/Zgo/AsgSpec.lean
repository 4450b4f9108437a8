import Verif.Zgo.AsgModel
/-!
# zgo assignments: specification

Go's assignment statements (the language specification, "Assignment statements"), and the meaning of the fragments
in Zig.
-/
namespace Verif.Zgo.Asg.Spec
open Verif.Zgo.Asg

/-- Where a value is stored, once the operands have been evaluated. -/
inductive Place (V : Type)
  | var (x : Nat)
  | nowhere
  | cell (p : V)
  | entry (m k : V)
  | elem (s i : V)

/-- What expressions do and where values are kept; `none` is a panic. -/
structure Env (σ E V : Type) where
  eval : E → σ → Option (σ × V)
  load : Place V → σ → Option V
  store : Place V → V → σ → Option σ
  op : AOp → V → V → Option V
  /-- Storing to `_` does nothing. -/
  nowhere : ∀ v s, store .nowhere v s = some s

variable {σ E V : Type}

/-- The operands on the left are evaluated. -/
def place (env : Env σ E V) : Left E → σ → Option (σ × Place V)
  | .var x, s => some (s, .var x)
  | .blank, s => some (s, .nowhere)
  | .star p, s => (env.eval p s).map fun r => (r.1, .cell r.2)
  | .smap m k, s | .map m k, s => (env.eval m s).bind fun r => (env.eval k r.1).map fun q => (q.1, .entry r.2 q.2)
  | .elem a i, s => (env.eval a s).bind fun r => (env.eval i r.1).map fun q => (q.1, .elem r.2 q.2)

/-- All of them, first to last. -/
def places (env : Env σ E V) : List (Left E) → σ → Option (σ × List (Place V))
  | [], s => some (s, [])
  | l :: ls, s => (place env l s).bind fun r => (places env ls r.1).map fun q => (q.1, r.2 :: q.2)

/-- The values on the right, first to last. -/
def evals (env : Env σ E V) : List E → σ → Option (σ × List V)
  | [], s => some (s, [])
  | e :: es, s => (env.eval e s).bind fun r => (evals env es r.1).map fun q => (q.1, r.2 :: q.2)

/-- The assignments, first to last. -/
def stores (env : Env σ E V) : List (Place V × V) → σ → Option σ
  | [], s => some s
  | (p, v) :: ps, s => (env.store p v s).bind (stores env ps)

/-- Go: first the operands and the values are evaluated, then the values are assigned. -/
def goAssign (env : Env σ E V) (vars : List (Left E)) (values : List E) (s : σ) : Option σ :=
  (places env vars s).bind fun r => (evals env values r.1).bind fun q => stores env (r.2.zip q.2) q.1

/-- Go: `x op= e`; the operand on the left is evaluated once. Whether it is read before or after `e` is evaluated is
not specified. -/
def goOp (env : Env σ E V) (o : AOp) (l : Left E) (e : E) (s : σ) (r : Option σ) : Prop :=
  (r = (place env l s).bind fun p => (env.load p.2 p.1).bind fun old => (env.eval e p.1).bind fun q =>
    (env.op o old q.2).bind fun v => env.store p.2 v q.1) ∨
  (r = (place env l s).bind fun p => (env.eval e p.1).bind fun q => (env.load p.2 q.1).bind fun old =>
    (env.op o old q.2).bind fun v => env.store p.2 v q.1)

/-- What Go allows a statement to do. A definition assigns to its variables, new or not. -/
def goMay (env : Env σ E V) : Tok → List (Left E) → List E → σ → Option σ → Prop
  | .op o, [l], [e], s, r => goOp env o l e s r
  | .op _, _, _, _, _ => False
  | _, vars, values, s, r => r = goAssign env vars values s

/-- What a fragment does in Zig: arguments are evaluated first to last, `x op= e` reads `x` first. -/
def zigRun (env : Env σ E V) : Frag E → σ → Option σ
  | .use e, s => (env.eval e s).map Prod.fst
  | .define x e, s | .assign x none e, s => (env.eval e s).bind fun q => env.store (.var x) q.2 q.1
  | .assign x (some o) e, s => (env.load (.var x) s).bind fun old => (env.eval e s).bind fun q =>
      (env.op o old q.2).bind fun v => env.store (.var x) v q.1
  | .ptrSet p e, s => (env.eval p s).bind fun a => (env.eval e a.1).bind fun q => env.store (.cell a.2) q.2 q.1
  | .smapSet m k e, s | .mapSet m k e, s => (env.eval m s).bind fun a => (env.eval k a.1).bind fun b =>
      (env.eval e b.1).bind fun q => env.store (.entry a.2 b.2) q.2 q.1
  | .elemSet a i e, s => (env.eval a s).bind fun x => (env.eval i x.1).bind fun b =>
      (env.eval e b.1).bind fun q => env.store (.elem x.2 b.2) q.2 q.1

/-- What Go accepts: as many values as variables or one call for several; `op=` with one of each; definitions of
variables only, and at least one. -/
def WellFormed (tok : Tok) (vars : List (Left E)) (values : List E) : Prop :=
  vars ≠ [] ∧ (values.length = vars.length ∨ values.length = 1) ∧
  match tok with
  | .op _ => ∃ l, vars = [l] ∧ l ≠ .blank
  | .define => (∀ l ∈ vars, (∃ x, l = .var x) ∨ l = .blank) ∧ ∃ x, .var x ∈ vars
  | .set => True

end Verif.Zgo.Asg.Spec
