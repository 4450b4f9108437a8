import Verif.Zgo.EscModel
import Mathlib.Logic.Relation

/-!
# zgo escape analysis: specification

What "escapes" means, without the graph: which variables an expression hands on, where values are
handed to, and which variables share values through assignments.
-/
namespace Verif.Zgo.Esc.Spec
open Verif.Zgo.Esc

/-! ## The links and marks a list of scanner operations stands for -/

/-- The two keys are linked directly by some operation. -/
def Linked (ops : List Op) (a b : Key) : Prop :=
  ∃ op ∈ ops, match op with
    | .route _ _ => False
    | .together m n => m ≠ n ∧ ((a = .node m ∧ b = .node n) ∨ (a = .node n ∧ b = .node m))
    | .info u n => (a = .var u ∧ b = .node n) ∨ (a = .node n ∧ b = .var u)

/-- The mark `f` was put on this key by some operation. -/
def Marked (f : Plan → Bool) (ops : List Op) (a : Key) : Prop :=
  ∃ n via, Op.route n via ∈ ops ∧ a = .node n ∧ f via = true

/-- A key from which a marked key can be reached by links. -/
def MarkReaches (f : Plan → Bool) (ops : List Op) (a : Key) : Prop :=
  ∃ b, Relation.ReflTransGen (Linked ops) a b ∧ Marked f ops b

/-- The four marks a plan has. -/
def Flag (f : Plan → Bool) : Prop :=
  f = Plan.block ∨ f = Plan.function ∨ f = Plan.goroutine ∨ f = Plan.containment

/-! ## Values and variables -/

/-- The value of the expression may be, or may point into, the variable: the variable occurs in it
other than as an index, a composite's key, an argument or callee of a call, a channel received from,
or inside a function literal. -/
inductive Carries : Expr → Var → Prop
  | var n v : Carries (.var n v) v
  | amp n x v : Carries x v → Carries (.amp n x) v
  | wrap n x v : Carries x v → Carries (.wrap n x) v
  | binaryL n x y v : Carries x v → Carries (.binary n x y) v
  | binaryR n x y v : Carries y v → Carries (.binary n x y) v
  | selectorX n x s v : Carries x v → Carries (.selector n x s) v
  | selectorS n x s v : Carries s v → Carries (.selector n x s) v
  | index n x is v : Carries x v → Carries (.index n x is) v
  | keyValue n k x v : Carries x v → Carries (.keyValue n k x) v
  | composite n es e v : e ∈ es → Carries e v → Carries (.composite n es) v

mutual
/-- The expression `a` occurs in the expression `e` (as itself, or in any part of it, function
literals included). -/
inductive InE (a : Expr) : Expr → Prop
  | here : InE a a
  | amp n x : InE a x → InE a (.amp n x)
  | wrap n x : InE a x → InE a (.wrap n x)
  | binaryL n x y : InE a x → InE a (.binary n x y)
  | binaryR n x y : InE a y → InE a (.binary n x y)
  | selectorX n x s : InE a x → InE a (.selector n x s)
  | selectorS n x s : InE a s → InE a (.selector n x s)
  | indexX n x is : InE a x → InE a (.index n x is)
  | indexI n x is i : i ∈ is → InE a i → InE a (.index n x is)
  | keyValueK n k x : InE a k → InE a (.keyValue n k x)
  | keyValueV n k x : InE a x → InE a (.keyValue n k x)
  | composite n es e : e ∈ es → InE a e → InE a (.composite n es)
  | function n body s : s ∈ body → ESInS a s → InE a (.function n body)
  | await n c : InE a c → InE a (.await n c)
  | callF n f args : InE a f → InE a (.call n f args)
  | callA n f args e : e ∈ args → InE a e → InE a (.call n f args)
/-- The expression occurs in the statement. Left out, and only these: the operand of `x++` and `x--`,
and the initial value of a `var` declaration. -/
inductive ESInS (a : Expr) : Stmt → Prop
  | assignL d vars vals e : e ∈ vars → InE a e → ESInS a (.assign d vars vals)
  | assignR d vars vals (i : Nat) x e : vars[i]? = some x → vals[i]? = some e → InE a e → ESInS a (.assign d vars vals)
  | expr e : InE a e → ESInS a (.expr e)
  | spawnF f args : InE a f → ESInS a (.spawn f args)
  | spawnA f args e : e ∈ args → InE a e → ESInS a (.spawn f args)
  | ret tys rs (i : Nat) t e : tys[i]? = some t → rs[i]? = some e → InE a e → ESInS a (.ret tys rs)
  | sendC c v : InE a c → ESInS a (.send c v)
  | sendV c v : InE a v → ESInS a (.send c v)
  | rangeX k w x body : InE a x → ESInS a (.range k w x body)
  | rangeB k w x body s : s ∈ body → ESInS a s → ESInS a (.range k w x body)
  | nestPre k pre es post s : s ∈ pre → ESInS a s → ESInS a (.nest k pre es post)
  | nestE k pre es post e : e ∈ es → InE a e → ESInS a (.nest k pre es post)
  | nestPost k pre es post s : s ∈ post → ESInS a s → ESInS a (.nest k pre es post)
end

/-- The statement `a` occurs in the statement `s`: as itself, nested in it, or in a function literal
of an expression of it. -/
inductive InS (a : Stmt) : Stmt → Prop
  | here : InS a a
  | range k w x body s : s ∈ body → InS a s → InS a (.range k w x body)
  | nestPre k pre es post s : s ∈ pre → InS a s → InS a (.nest k pre es post)
  | nestPost k pre es post s : s ∈ post → InS a s → InS a (.nest k pre es post)
  | literal s n body t : ESInS (.function n body) s → t ∈ body → InS a t → InS a s

/-- The statement occurs in the program. -/
def Occurs (prog : List Stmt) (a : Stmt) : Prop := ∃ s ∈ prog, InS a s

/-- The expression occurs in the program. -/
def OccursE (prog : List Stmt) (a : Expr) : Prop := ∃ s ∈ prog, ESInS a s

/-- A value is handed to somewhere that outlives the function: as an argument of a call (of any kind,
`go` and `defer` included), as a result of a type that can refer to memory, or to a variable declared
at package level. -/
inductive Sink (prog : List Stmt) : Expr → Prop
  | arg n f args e : OccursE prog (.call n f args) → e ∈ args → Sink prog e
  | spawn f args e : Occurs prog (.spawn f args) → e ∈ args → Sink prog e
  | ret tys rs (i : Nat) t e : Occurs prog (.ret tys rs) → tys[i]? = some t → rs[i]? = some e →
      (t = Ty.reference ∨ t = Ty.string) → Sink prog e
  | global d vars vals (i : Nat) n v e : Occurs prog (.assign d vars vals) → vars[i]? = some (Expr.var n v) →
      v.package = true → vals[i]? = some e → Sink prog e
  | imported d vars vals (i : Nat) n p m v e : Occurs prog (.assign d vars vals) →
      vars[i]? = some (Expr.selector n p (Expr.var m v)) →
      v.package = true → vals[i]? = some e → Sink prog e

/-- One assignment or channel send of the program puts a value carrying one of the variables where the
other is, or one expression carries both. -/
inductive Shares (prog : List Stmt) : Nat → Nat → Prop
  | assign d vars vals (i : Nat) x e v w : Occurs prog (.assign d vars vals) → vars[i]? = some x →
      vals[i]? = some e → Carries x v → Carries e w → Shares prog v.unique w.unique
  | send c e v w : Occurs prog (.send c e) → Carries c v → Carries e w → Shares prog v.unique w.unique
  | expr e v w : OccursE prog e → Carries e v → Carries e w → Shares prog v.unique w.unique
  | symm a b : Shares prog a b → Shares prog b a

/-- The program has this occurrence `n` of the variable: a use in a scanned position, or the name of a
`var` declaration. -/
def Use (prog : List Stmt) (n : Nat) (v : Var) : Prop :=
  OccursE prog (.var n v) ∨ ∃ val, Occurs prog (.define n v val)

/-- The value of the expression is the address of the variable: `&v`, or a variable that was
initialised with (`var p = &v`) or assigned (`p = &v`, `p := &v`) such a value. -/
inductive PointsTo (prog : List Stmt) : Expr → Var → Prop
  | amp n m v : PointsTo prog (.amp n (.var m v)) v
  | init n m p val v : Occurs prog (.define m p (some val)) → PointsTo prog val v → PointsTo prog (.var n p) v
  | assigned n m p d vars vals (i : Nat) e v : Occurs prog (.assign d vars vals) →
      vars[i]? = some (Expr.var m p) → vals[i]? = some e → PointsTo prog e v → PointsTo prog (.var n p) v

/-- The variable is needed after the function that declares it has returned. -/
inductive Outlives (prog : List Stmt) (v : Var) : Prop
  /-- its address is returned -/
  | returned tys rs (i : Nat) e : Occurs prog (.ret tys rs) → tys[i]? = some .reference → rs[i]? = some e →
      PointsTo prog e v → Outlives prog v
  /-- its address is stored in a package-level variable -/
  | stored d vars vals (i : Nat) n g e : Occurs prog (.assign d vars vals) →
      vars[i]? = some (Expr.var n g) → g.package = true → vals[i]? = some e → PointsTo prog e v → Outlives prog v
  /-- its address is stored in a field or an element of a package-level variable -/
  | inside d vars vals (i : Nat) n m g s e : Occurs prog (.assign d vars vals) →
      vars[i]? = some (Expr.selector n (.var m g) s) → g.package = true → vals[i]? = some e →
      PointsTo prog e v → Outlives prog v
  /-- a function literal that uses it is returned -/
  | captured tys rs (i : Nat) n m body : Occurs prog (.ret tys rs) → tys[i]? = some .reference →
      rs[i]? = some (Expr.function n body) → InE (.var m v) (.function n body) → Outlives prog v
  /-- its address is stored where a pointer leads: `*p = &v` -/
  | through d vars vals (i : Nat) n m p e : Occurs prog (.assign d vars vals) →
      vars[i]? = some (Expr.wrap n (.var m p)) → vals[i]? = some e → PointsTo prog e v →
      (∀ k val, ¬ Occurs prog (.define k p val)) →  -- `p` is a parameter
      Outlives prog v

end Verif.Zgo.Esc.Spec
