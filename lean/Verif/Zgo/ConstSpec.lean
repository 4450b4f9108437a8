import Verif.Zgo.ConstModel
/-!
# zgo constant declarations: specification

The value of a constant declaration in Go (The Go Programming Language Specification, "Constant declarations", "Iota",
"Constant expressions") and in Zig (language reference, "Integer literals", "Operators", "Type coercion"). Neither mentions
the compiler.
-/
namespace Verif.Zgo.Const

/-- The numbers an integer type holds. -/
def Holds (t : ITy) (n : Int) : Prop :=
  if t.signed then -(2 ^ (t.bits - 1) : Nat) ≤ n ∧ n < (2 ^ (t.bits - 1) : Nat) else 0 ≤ n ∧ n < (2 ^ t.bits : Nat)

instance (t : ITy) (n : Int) : Decidable (Holds t n) := by unfold Holds; split <;> infer_instance

/-- A constant: its type (none: untyped) and value. -/
structure Cst where
  type : Option ITy
  val : Int
  deriving DecidableEq, Repr

/-- The constants in scope. -/
abbrev Env := List (Name × Cst)

/-- The operation on numbers. -/
def Op.on : Op → Int → Int → Int
  | .add => (· + ·)
  | .sub => (· - ·)
  | .mul => (· * ·)

/-- A constant of a type must be held by it; untyped constants are unlimited. -/
def checked (t : Option ITy) (n : Int) : Option Cst :=
  match t with
  | none => some ⟨none, n⟩
  | some t => if Holds t n then some ⟨some t, n⟩ else none

/-- The type two operands have in common in Go: untyped operands take the type of the other, typed ones must agree. -/
def common : Option ITy → Option ITy → Option (Option ITy)
  | none, t => some t
  | t, none => some t
  | some t, some u => if t = u then some (some t) else none

/-- Go: the value of a constant expression; `none` is an error. Arithmetic on untyped constants is exact. -/
def goVal (ρ : Env) (i : Nat) : E → Option Cst
  | .lit n => some ⟨none, n⟩
  | .iota => some ⟨none, i⟩
  | .ref x => ρ.lookup x
  | .neg e => (goVal ρ i e).bind fun a => checked a.type (-a.val)
  | .bin o l r => (goVal ρ i l).bind fun a => (goVal ρ i r).bind fun b =>
    (common a.type b.type).bind fun t => checked t (o.on a.val b.val)
  | .shl e k => (goVal ρ i e).bind fun a => checked a.type (a.val * 2 ^ k)
  | .shr e k => (goVal ρ i e).bind fun a => checked a.type (a.val / 2 ^ k)

/-- Go: the value is converted to the declared type, if there is one; a typed value must already have it. -/
def goConvert : Option ITy → Cst → Option Cst
  | none, c => some c
  | some t, c => if c.type = none ∨ c.type = some t then checked (some t) c.val else none

/-- Go: the constants declared by the names of one specification; all values see the constants before it. -/
def goNames (ρ : Env) (i : Nat) (type : Option ITy) : List Name → List E → Option Env
  | [], [] => some []
  | x :: xs, e :: es => (goVal ρ i e).bind fun c => (goConvert type c).bind fun c =>
    (goNames ρ i type xs es).map fun Δ => Δ ++ [(x, c)]
  | _, _ => none

/-- Go: a declaration in parentheses. `iota` is the index of the specification, and one without type and values repeats the
last before it that has values. -/
def goGroup (ρ : Env) (i : Nat) (last : Option ITy × List E) : List Spec → Option Env
  | [] => some ρ
  | s :: ss =>
    let cur := if s.values = [] ∧ s.type = none then last else (s.type, s.values)
    (goNames ρ i cur.1 s.names cur.2).bind fun Δ => goGroup (Δ ++ ρ) (i + 1) cur ss

/-- Go: the constants of a declaration. -/
def goConsts (ss : List Spec) : Option Env := goGroup [] 0 (none, []) ss

/-- The number in the range of the type with the same lowest bits. -/
def wrapTo (t : ITy) (n : Int) : Int :=
  if t.signed then (n + (2 ^ (t.bits - 1) : Nat)) % (2 ^ t.bits : Nat) - (2 ^ (t.bits - 1) : Nat) else n % (2 ^ t.bits : Nat)

/-- The type two operands have in common in Zig (peer type resolution): an operand of type `comptime_int` (none) takes the
type of the other, of two types of the same sign the wider is taken. Types of different sign are taken to be refused (Zig
accepts some). -/
def peer : Option ITy → Option ITy → Option (Option ITy)
  | none, t => some t
  | t, none => some t
  | some t, some u => if t.signed = u.signed then some (some ⟨t.signed, max t.bits u.bits⟩) else none

/-- The declared Zig constants: name, type and value. -/
abbrev ZEnv := List (Name × ITy × Int)

/-- Zig: the value of a constant expression; `none` is an error. `comptime_int` is unlimited, a fixed-width `+`, `-` or `*`
that overflows is an error, and a fixed-width `<<` drops the bits that do not fit. -/
def zigVal (ρ : ZEnv) : E → Option Cst
  | .lit n => some ⟨none, n⟩
  | .iota => none
  | .ref x => (ρ.lookup x).map fun d => ⟨some d.1, d.2⟩
  | .neg e => (zigVal ρ e).bind fun a => checked a.type (-a.val)
  | .bin o l r => (zigVal ρ l).bind fun a => (zigVal ρ r).bind fun b =>
    (peer a.type b.type).bind fun t => (checked t a.val).bind fun a => (checked t b.val).bind fun b =>
      checked t (o.on a.val b.val)
  | .shl e k => (zigVal ρ e).bind fun a =>
    match a.type with
    | none => some ⟨none, a.val * 2 ^ k⟩
    | some t => if k < t.bits then some ⟨some t, wrapTo t (a.val * 2 ^ k)⟩ else none
  | .shr e k => (zigVal ρ e).bind fun a =>
    match a.type with
    | none => some ⟨none, a.val / 2 ^ k⟩
    | some t => if k < t.bits then some ⟨some t, a.val / 2 ^ k⟩ else none

/-- Zig: declarations one after the other; the value must be held by the declared type. -/
def zigDecls (ρ : ZEnv) : List ZDecl → Option ZEnv
  | [] => some ρ
  | d :: ds => (zigVal ρ d.value).bind fun v => (checked (some d.type) v.val).bind fun v =>
    zigDecls ((d.name, d.type, v.val) :: ρ) ds

/-- The expression mentions `iota`. -/
def E.hasIota : E → Bool
  | .iota => true
  | .lit _ | .ref _ => false
  | .neg e | .shl e _ | .shr e _ => e.hasIota
  | .bin _ l r => l.hasIota || r.hasIota

/-- The expression mentions a constant. -/
def E.hasRef : E → Bool
  | .ref _ => true
  | .lit _ | .iota => false
  | .neg e | .shl e _ | .shr e _ => e.hasRef
  | .bin _ l r => l.hasRef || r.hasRef

/-- Only expressions without constants are shifted to the left. -/
def E.literalShifts : E → Bool
  | .ref _ | .lit _ | .iota => true
  | .neg e | .shr e _ => e.literalShifts
  | .shl e _ => !e.hasRef
  | .bin _ l r => l.literalShifts && r.literalShifts

/-- An untyped integer constant that is given a type by default is an `int`. -/
def asInt : Option ITy → ITy
  | none => ⟨true, 64⟩
  | some t => t

/-- The expression stays within one type `t`: the constants it mentions have that type (untyped ones count as `int`), it and
all its parts have values that `t` holds, and shifts are by less than its width, those to the left of literals only. -/
def Uniform (ρ : Env) (t : ITy) : E → Prop
  | .lit n => Holds t n
  | .iota => False
  | .ref x => ∃ c, ρ.lookup x = some c ∧ asInt c.type = t ∧ Holds t c.val
  | .neg e => Uniform ρ t e ∧ ∀ c, goVal ρ 0 e = some c → Holds t (-c.val)
  | .bin o l r => Uniform ρ t l ∧ Uniform ρ t r ∧
    ∀ a b, goVal ρ 0 l = some a → goVal ρ 0 r = some b → Holds t (o.on a.val b.val)
  | .shl e k => Uniform ρ t e ∧ e.hasRef = false ∧ ∀ c, goVal ρ 0 e = some c → Holds t (c.val * 2 ^ k)
  | .shr e k => Uniform ρ t e ∧ k < t.bits ∧ ∀ c, goVal ρ 0 e = some c → Holds t (c.val / 2 ^ k)

/-- All specifications have their own values, which stay within one type each and within `int` if they are untyped. -/
def Modest (ρ : Env) : List Spec → Prop
  | [] => True
  | s :: ss => s.values ≠ [] ∧
    (∀ e ∈ s.values, (∃ t, Uniform ρ t e) ∧
      ∀ c c', goVal ρ 0 e = some c → goConvert s.type c = some c' → Holds (asInt c'.type) c'.val) ∧
    ∀ Δ, goNames ρ 0 s.type s.names s.values = some Δ → Modest (Δ ++ ρ) ss

end Verif.Zgo.Const
