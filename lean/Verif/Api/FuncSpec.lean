import Verif.Api.FuncModel
/-!
# What the functions of an API should do

A signature is how a programmer writes a function of an API: perhaps a context, parameters, results, perhaps an error.
-/
namespace Verif.Api

/-- `func(ctx context.Context, params...) (results..., error)`, where context and error may be missing. -/
structure Sig where
  ctx : Bool
  params : List Ty
  results : List Ty
  err : Bool
deriving DecidableEq

/-- The Go type of a signature. -/
def Sig.ft (g : Sig) : FT where
  ins := (if g.ctx then [contextTy] else []) ++ g.params
  outs := g.results ++ (if g.err then [errorTy] else [])

/-- A signature says all there is to say about contexts and errors: a function without context has none for its first
parameter, and one without error has no last result that is an error. -/
structure Sig.Plain (g : Sig) : Prop where
  noCtx : g.ctx = false → g.params.head? ≠ some contextTy
  noErr : g.err = false → ∀ t, g.results.getLast? = some t → 0 ∉ t.methods

variable {S X : Type}

/-- What a Go caller passes. -/
def Sig.pass (g : Sig) (c : Ty × X) (args : List (RV X)) : List (RV X) :=
  (if g.ctx then [.mk contextTy (some c)] else []) ++ args

/-- What a Go caller gets: the results and an error, which may be nil. -/
def Sig.give (g : Sig) (rs : List (RV X)) (e : Dyn X) : List (RV X) :=
  rs ++ (if g.err then [.mk errorTy e] else [])

/-- How a call with this outcome ends for a Go caller. -/
def Sig.ends (g : Sig) : Res X (List (RV X) × Dyn X) → Res X (List (RV X))
  | .ok (rs, e) => .ok (g.give rs e)
  | .panic p => .panic p

/-- A value of a (static) type. -/
def Typed (v : RV X) (t : Ty) : Prop := ∃ d, v = .mk t d

/-- Values of types, one for each. -/
inductive AllTyped : List (RV X) → List Ty → Prop where
  | nil : AllTyped [] []
  | cons {v : RV X} {t : Ty} {vs : List (RV X)} {ts : List Ty} (h : Typed v t) (hs : AllTyped vs ts) :
    AllTyped (v :: vs) (t :: ts)

/-- The zero values of the results. -/
def Sig.zeros (g : Sig) (sys : Sys X) : List (RV X) :=
  g.results.map fun t => .mk t (if t.iface then none else some (t, sys.zero t))

/-- The zero value of a slice is the nil slice. -/
structure Sys.Lawful (sys : Sys X) : Prop where
  nilValues : sys.unpackValues (sys.zero valuesTy) = none

end Verif.Api
