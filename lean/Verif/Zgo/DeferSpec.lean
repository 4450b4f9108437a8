import Verif.Zgo.DeferModel
/-!
# C199: deferred calls in Go

A defer statement evaluates its arguments and puts the call on the function's stack of deferred calls, wherever it is in the function. When the function
returns or panics, the calls on the stack are made, the last first.
-/
namespace Verif.Zgo.Defer.Spec

variable {σ V R : Type}

mutual
/-- The statements of a function, with the calls deferred so far, the last first. -/
def exec : Stmts σ V R → σ → List (σ → σ) → Out σ R × List (σ → σ)
  | .nil, s, ds => (.next s, ds)
  | .cons st rest, s, ds =>
    match execStmt st s ds with
    | (.next s', ds') => exec rest s' ds'
    | (.ret r s', ds') => (.ret r s', ds')
    | (.panic s', ds') => (.panic s', ds')
/-- One statement. -/
def execStmt : Stmt σ V R → σ → List (σ → σ) → Out σ R × List (σ → σ)
  | .simple f, s, ds => (f s, ds)
  | .defer a f _, s, ds => (.next s, f (a s) :: ds)
  | .cond c b, s, ds => if c s then exec b s ds else (.next s, ds)
end

/-- The deferred calls, one after the other. -/
def unwind (ds : List (σ → σ)) (s : σ) : σ := ds.foldl (fun s d => d s) s

/-- A function of Go: its statements, then its deferred calls. -/
def go (b : Stmts σ V R) (s : σ) : Out σ R :=
  match exec b s [] with
  | (.next s', ds) => .next (unwind ds s')
  | (.ret r s', ds) => .ret r (unwind ds s')
  | (.panic s', ds) => .panic (unwind ds s')

/-- Every function compiles, and the compiled one does what it does in Go. -/
def Holds (σ V R : Type) : Prop :=
  ∀ b : Stmts σ V R, ∃ z, compileFunction b = some z ∧ accepts z = true ∧ ∀ s, zrun z s = go b s

end Verif.Zgo.Defer.Spec
