import Verif.Zgo.FlowModel

/-!
# zgo control flow: specification

What Go's statements do (the Go language specification) and what Zig's do (the Zig language reference). The
two differ in what `break` leaves: in Go the innermost loop or switch, in Zig the innermost loop.
-/
namespace Verif.Zgo.Flow.Spec
open Verif.Zgo.Flow

/-- What simple statements, conditions, tags and ranges do to a state. -/
structure Env (σ : Type) where
  act : Nat → σ → σ
  test : Nat → σ → Bool
  tag : Nat → σ → Int
  count : Nat → σ → Nat
  bind : Nat → Nat → σ → σ

/-- How a statement ends. -/
inductive Out
  | normal
  | brk (label : Option Nat)
  | cont (label : Option Nat)
  | ret
  deriving DecidableEq

variable {σ : Type}

/-- A branch without a label, or with this one, is for us. -/
def mine (label target : Option Nat) : Bool :=
  match target with
  | none => true
  | some t => label == some t

/-- One round of a loop: `.inl` to stop with a result, `.inr` to go on. -/
def round (label : Option Nat) : Option (σ × Out) → Option (σ × Out) ⊕ σ
  | none => .inl none
  | some (s, .normal) => .inr s
  | some (s, .brk t) => if mine label t then .inl (some (s, .normal)) else .inl (some (s, .brk t))
  | some (s, .cont t) => if mine label t then .inr s else .inl (some (s, .cont t))
  | some (s, .ret) => .inl (some (s, .ret))

/-- A loop with a condition; the number bounds the rounds, `none` says that they were not enough. -/
def while_ (label : Option Nat) (test : σ → Bool) (post : σ → σ) (body : σ → Option (σ × Out)) :
    Nat → σ → Option (σ × Out)
  | 0, _ => none
  | n + 1, s =>
    if test s then
      match round label (body s) with
      | .inl r => r
      | .inr s' => while_ label test post body n (post s')
    else some (s, .normal)

/-- A loop over the numbers from `i`, `n` of them. -/
def for_ (label : Option Nat) (bind : Nat → σ → σ) (body : σ → Option (σ × Out)) : Nat → Nat → σ → Option (σ × Out)
  | 0, _, s => some (s, .normal)
  | n + 1, i, s =>
    match round label (body (bind i s)) with
    | .inl r => r
    | .inr s' => for_ label bind body n (i + 1) s'

/-- The optional simple statement. -/
def opt (env : Env σ) (o : Option Nat) (s : σ) : σ :=
  match o with
  | none => s
  | some n => env.act n s

/-- One after the other. -/
def seq (r : Option (σ × Out)) (k : σ → Option (σ × Out)) : Option (σ × Out) :=
  match r with
  | some (s, .normal) => k s
  | r => r

/-- Go: `break` without a label leaves the switch. -/
def leaveSwitch : Option (σ × Out) → Option (σ × Out)
  | some (s, .brk none) => some (s, .normal)
  | r => r

/-- Go: a label on a statement that is not a loop; `break` with it leaves the statement. -/
def leaveLabel (l : Nat) : Option (σ × Out) → Option (σ × Out)
  | some (s, .brk (some t)) => if t = l then some (s, .normal) else some (s, .brk (some t))
  | r => r

mutual
/-- Go's meaning of a statement. -/
def goRun (env : Env σ) (fuel : Nat) : Stmt → σ → Option (σ × Out)
  | .act n, s => some (env.act n s, .normal)
  | .block b, s => goAll env fuel b s
  | .cond init c t e, s =>
    if env.test c (opt env init s) then goAll env fuel t (opt env init s) else goAll env fuel e (opt env init s)
  | .loop label init c post b, s =>
    while_ label (env.test c) (opt env post) (goAll env fuel b) fuel (opt env init s)
  | .range label src b, s => for_ label (env.bind src) (goAll env fuel b) (env.count src s) 0 s
  | .switch init tag cs, s =>
    leaveSwitch (match goMatch env fuel (env.tag tag (opt env init s)) cs (opt env init s) with
      | some r => r
      | none =>
        match goDefault env fuel cs (opt env init s) with
        | some r => r
        | none => some (opt env init s, .normal))
  | .brk l, s => some (s, .brk l)
  | .cont l, s => some (s, .cont l)
  | .ret, s => some (s, .ret)
  | .labelled l b, s => leaveLabel l (goRun env fuel b s)

def goAll (env : Env σ) (fuel : Nat) : Stmts → σ → Option (σ × Out)
  | .nil, s => some (s, .normal)
  | .cons a rest, s => seq (goRun env fuel a s) (goAll env fuel rest)

/-- The first clause with the value; `none` if there is none. -/
def goMatch (env : Env σ) (fuel : Nat) (v : Int) : Clauses → σ → Option (Option (σ × Out))
  | .nil, _ => none
  | .cons guard body falls rest, s =>
    if (guard.getD []).contains v then
      some (if falls then seq (goAll env fuel body s) (goNext env fuel rest) else goAll env fuel body s)
    else goMatch env fuel v rest s

/-- The `default` clause. -/
def goDefault (env : Env σ) (fuel : Nat) : Clauses → σ → Option (Option (σ × Out))
  | .nil, _ => none
  | .cons guard body falls rest, s =>
    if guard = none then
      some (if falls then seq (goAll env fuel body s) (goNext env fuel rest) else goAll env fuel body s)
    else goDefault env fuel rest s

/-- The statements after a `fallthrough`. -/
def goNext (env : Env σ) (fuel : Nat) : Clauses → σ → Option (σ × Out)
  | .nil, s => some (s, .normal)
  | .cons _ body falls rest, s =>
    if falls then seq (goAll env fuel body s) (goNext env fuel rest) else goAll env fuel body s
end

/-- Zig: a labelled block is left by `break` with its label. -/
def leaveBlock (label : Option Nat) : Option (σ × Out) → Option (σ × Out)
  | some (s, .brk (some t)) => if label = some t then some (s, .normal) else some (s, .brk (some t))
  | r => r

mutual
/-- Zig's meaning of a statement. -/
def zigRun (env : Env σ) (fuel : Nat) : ZStmt → σ → Option (σ × Out)
  | .act n, s => some (env.act n s, .normal)
  | .block label b, s => leaveBlock label (zigAll env fuel b s)
  | .cond c t e, s => if env.test c s then zigAll env fuel t s else zigAll env fuel e s
  | .loop label c post b, s => while_ label (env.test c) (opt env post) (zigAll env fuel b) fuel s
  | .range label src body, s => for_ label (env.bind src) (zigRun env fuel body) (env.count src s) 0 s
  | .switch tag cs, s =>
    match zigMatch env fuel (env.tag tag s) cs s with
    | some r => r
    | none =>
      match zigElse env fuel cs s with
      | some r => r
      | none => some (s, .normal)
  | .brk l, s => some (s, .brk l)
  | .cont l, s => some (s, .cont l)
  | .ret, s => some (s, .ret)

def zigAll (env : Env σ) (fuel : Nat) : ZStmts → σ → Option (σ × Out)
  | .nil, s => some (s, .normal)
  | .cons a rest, s => seq (zigRun env fuel a s) (zigAll env fuel rest)

def zigMatch (env : Env σ) (fuel : Nat) (v : Int) : ZClauses → σ → Option (Option (σ × Out))
  | .nil, _ => none
  | .cons guard body rest, s =>
    if (guard.getD []).contains v then some (zigAll env fuel body s) else zigMatch env fuel v rest s

def zigElse (env : Env σ) (fuel : Nat) : ZClauses → σ → Option (Option (σ × Out))
  | .nil, _ => none
  | .cons guard body rest, s =>
    if guard = none then some (zigAll env fuel body s) else zigElse env fuel rest s
end

/-! ## Which programs the languages accept -/

/-- Where a statement stands: the labels of the loops around it, whether there is a loop, whether there is a
loop or switch; the labels of other statements (Go) or blocks (Zig) around it. -/
structure Ctx where
  loops : List Nat := []
  others : List Nat := []
  inLoop : Bool := false
  breakable : Bool := false

/-- Inside a loop. -/
def Ctx.loop (c : Ctx) (label : Option Nat) : Ctx :=
  { c with loops := label.toList ++ c.loops, inLoop := true, breakable := true }

mutual
/-- Go accepts the statement: every branch has a target. -/
def GoValid : Ctx → Stmt → Prop
  | _, .act _ => True
  | c, .block b => GoValidAll c b
  | c, .cond _ _ t e => GoValidAll c t ∧ GoValidAll c e
  | c, .loop label _ _ _ b => GoValidAll (c.loop label) b
  | c, .range label _ b => GoValidAll (c.loop label) b
  | c, .switch _ _ cs => GoValidClauses { c with breakable := true } cs
  | c, .brk none => c.breakable = true
  | c, .brk (some l) => l ∈ c.loops ∨ l ∈ c.others
  | c, .cont none => c.inLoop = true
  | c, .cont (some l) => l ∈ c.loops
  | _, .ret => True
  | c, .labelled l s => GoValid { c with others := l :: c.others } s

def GoValidAll : Ctx → Stmts → Prop
  | _, .nil => True
  | c, .cons s rest => GoValid c s ∧ GoValidAll c rest

def GoValidClauses : Ctx → Clauses → Prop
  | _, .nil => True
  | c, .cons _ body _ rest => GoValidAll c body ∧ GoValidClauses c rest
end

/-- A switch on integers has an `else` clause. -/
def hasElse : ZClauses → Bool
  | .nil => false
  | .cons guard _ rest => guard.isNone || hasElse rest

mutual
/-- Zig accepts the statement: every branch has a target, and a switch on integers has an `else`. -/
def ZigValid : Ctx → ZStmt → Prop
  | _, .act _ => True
  | c, .block label b => ZigValidAll { c with others := label.toList ++ c.others } b
  | c, .cond _ t e => ZigValidAll c t ∧ ZigValidAll c e
  | c, .loop label _ _ b => ZigValidAll (c.loop label) b
  | c, .range label _ b => ZigValid (c.loop label) b
  | c, .switch _ cs => hasElse cs = true ∧ ZigValidClauses c cs
  | c, .brk none => c.inLoop = true
  | c, .brk (some l) => l ∈ c.loops ∨ l ∈ c.others
  | c, .cont none => c.inLoop = true
  | c, .cont (some l) => l ∈ c.loops
  | _, .ret => True

def ZigValidAll : Ctx → ZStmts → Prop
  | _, .nil => True
  | c, .cons s rest => ZigValid c s ∧ ZigValidAll c rest

def ZigValidClauses : Ctx → ZClauses → Prop
  | _, .nil => True
  | c, .cons _ body rest => ZigValidAll c body ∧ ZigValidClauses c rest
end

/-- There is a `default` clause. -/
def hasDefault : Clauses → Bool
  | .nil => false
  | .cons guard _ _ rest => guard.isNone || hasDefault rest

mutual
/-- The statements for which the property holds. `sw`: the innermost loop or switch is a switch. -/
def Plain : Bool → Stmt → Prop
  | _, .act _ => True
  | sw, .block b => PlainAll sw b
  | sw, .cond init _ t e => init = none ∧ PlainAll sw t ∧ PlainAll sw e
  | _, .loop _ _ _ _ b => PlainAll false b
  | _, .range label _ b => label = none ∧ PlainAll false b
  | _, .switch _ _ cs => hasDefault cs = true ∧ PlainClauses cs
  | sw, .brk none => sw = false
  | _, .brk (some _) => True
  | _, .cont _ => True
  | _, .ret => True
  | _, .labelled _ _ => False

def PlainAll : Bool → Stmts → Prop
  | _, .nil => True
  | sw, .cons s rest => Plain sw s ∧ PlainAll sw rest

def PlainClauses : Clauses → Prop
  | .nil => True
  | .cons _ body falls rest => falls = false ∧ PlainAll true body ∧ PlainClauses rest
end

/-! ## Braces -/

/-- The depth after the braces, `none` if one closes what was not opened. -/
def nest : Nat → List Bool → Option Nat
  | d, [] => some d
  | d, true :: rest => nest (d + 1) rest
  | 0, false :: _ => none
  | d + 1, false :: rest => nest d rest

/-- Every brace is closed. -/
def Balanced (bs : List Bool) : Prop := nest 0 bs = some 0

mutual
/-- The number of `if` statements with an initial statement. -/
def ifInits : Stmt → Nat
  | .act _ => 0
  | .block b => ifInitsAll b
  | .cond init _ t e => (if init.isSome then 1 else 0) + ifInitsAll t + ifInitsAll e
  | .loop _ _ _ _ b => ifInitsAll b
  | .range _ _ b => ifInitsAll b
  | .switch _ _ cs => ifInitsClauses cs
  | .brk _ => 0
  | .cont _ => 0
  | .ret => 0
  | .labelled _ s => ifInits s

def ifInitsAll : Stmts → Nat
  | .nil => 0
  | .cons s rest => ifInits s + ifInitsAll rest

def ifInitsClauses : Clauses → Nat
  | .nil => 0
  | .cons _ body _ rest => ifInitsAll body + ifInitsClauses rest
end

end Verif.Zgo.Flow.Spec
