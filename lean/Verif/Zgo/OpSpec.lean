import Verif.Zgo.OpModel

/-!
# zgo operators: specification

Which expressions Go's grammar reads from text without parentheses, and how Zig's parser
(`std.zig.Parse.parseExprPrecedence`) reads a list of tokens.
-/
namespace Verif.Zgo.Op.Spec
open Verif.Zgo.Op

/-- The Go language specification, "Operator precedence"; zero if it is not a binary operator. -/
def goPrec : Sym → Nat
  | .mul | .div | .rem | .shl | .shr | .and | .andNot => 5
  | .add | .sub | .or | .xor => 4
  | .eq | .ne | .lt | .le | .gt | .ge => 3
  | .land => 2
  | .lor => 1
  | .bang => 0

/-- The unary operators of Go (`+`, `-`, `!`, `^`). -/
def goUnary : Sym → Prop
  | .add | .sub | .bang | .xor => True
  | _ => False

/-- The precedence of the outermost operator; unary and primary expressions bind tightest. -/
def goTop : Expr → Nat
  | .bin s _ _ => goPrec s
  | _ => 6

/-- The trees that Go's parser makes: binary operators of one precedence associate to the left. -/
def GoTree : Expr → Prop
  | .atom _ => True
  | .par e => GoTree e
  | .un s e => goUnary s ∧ GoTree e ∧ goTop e = 6
  | .bin s l r => goPrec s ≠ 0 ∧ GoTree l ∧ GoTree r ∧ goPrec s ≤ goTop l ∧ goPrec s < goTop r

/-- Zig's table of binary operators: the operator and its precedence. -/
def zigBinary : Tok → Option (Sym × Nat)
  | .kwOr => some (.lor, 10)
  | .kwAnd => some (.land, 20)
  | .sym .eq => some (.eq, 30)
  | .sym .ne => some (.ne, 30)
  | .sym .lt => some (.lt, 30)
  | .sym .gt => some (.gt, 30)
  | .sym .le => some (.le, 30)
  | .sym .ge => some (.ge, 30)
  | .sym .and => some (.and, 40)
  | .sym .xor => some (.xor, 40)
  | .sym .or => some (.or, 40)
  | .sym .shl => some (.shl, 50)
  | .sym .shr => some (.shr, 50)
  | .sym .add => some (.add, 60)
  | .sym .sub => some (.sub, 60)
  | .sym .mul => some (.mul, 70)
  | .sym .div => some (.div, 70)
  | .sym .rem => some (.rem, 70)
  | _ => none

/-- Comparisons do not associate. -/
def nonAssoc (prec : Nat) : Bool := prec == 30

mutual
/-- `parseExprPrecedence`. The first number bounds the depth. -/
def parsePrec : Nat → Nat → List Tok → Option (Expr × List Tok)
  | 0, _, _ => none
  | n + 1, low, ts =>
    match parsePrefix n ts with
    | some (e, rest) => parseLoop n low none e rest
    | none => none

/-- `parsePrefixExpr`, as far as `!`, `-`, parentheses and other operands. -/
def parsePrefix : Nat → List Tok → Option (Expr × List Tok)
  | 0, _ => none
  | n + 1, ts =>
    match ts with
    | .atom a :: rest => some (.atom a, rest)
    | .lpar :: rest =>
      match parsePrec n 0 rest with
      | some (e, .rpar :: rest') => some (.par e, rest')
      | _ => none
    | .sym .bang :: rest => (parsePrefix n rest).map fun r => (.un .bang r.1, r.2)
    | .sym .sub :: rest => (parsePrefix n rest).map fun r => (.un .sub r.1, r.2)
    | _ => none

/-- The loop of `parseExprPrecedence`: the lowest precedence it takes, the precedence that was banned by a
comparison, the expression so far. -/
def parseLoop : Nat → Nat → Option Nat → Expr → List Tok → Option (Expr × List Tok)
  | 0, _, _, _, _ => none
  | n + 1, low, banned, e, ts =>
    match ts with
    | [] => some (e, [])
    | t :: rest =>
      match zigBinary t with
      | none => some (e, ts)
      | some (s, prec) =>
        if prec < low then some (e, ts)
        else if banned = some prec then none
        else match parsePrec n (prec + 1) rest with
          | some (r, rest') => parseLoop n low (if nonAssoc prec then some prec else banned) (.bin s e r) rest'
          | none => none
end

/-- Zig reads the tokens as the expression. -/
def ZigReads (ts : List Tok) (e : Expr) : Prop := ∃ n, parsePrec n 0 ts = some (e, [])

/-- The precedence of an operator as Go's compiler writes it; `none` if Zig has no such operator. -/
def zigPrec : Sym → Option Nat
  | .lor => some 10
  | .land => some 20
  | .eq | .ne | .lt | .le | .gt | .ge => some 30
  | .and | .or | .xor => some 40
  | .shl | .shr => some 50
  | .add | .sub => some 60
  | .mul | .div | .rem => some 70
  | .andNot | .bang => none

/-- The precedence of the outermost operator in Zig. -/
def zigTop : Expr → Nat
  | .bin s _ _ => (zigPrec s).getD 0
  | _ => 80

/-- The trees that mean the same to Zig without further parentheses. -/
def ZigTree : Expr → Prop
  | .atom _ => True
  | .par e => ZigTree e
  | .un s e => (s = .bang ∨ s = .sub) ∧ ZigTree e ∧ zigTop e = 80
  | .bin s l r => ∃ p, zigPrec s = some p ∧ ZigTree l ∧ ZigTree r ∧
      (if nonAssoc p then p < zigTop l else p ≤ zigTop l) ∧ p < zigTop r

/-- An expression made of the operators in the list only. -/
def Uses (bins uns : List Sym) : Expr → Prop
  | .atom _ => True
  | .par e => Uses bins uns e
  | .un s e => s ∈ uns ∧ Uses bins uns e
  | .bin s l r => s ∈ bins ∧ Uses bins uns l ∧ Uses bins uns r

/-- No comparison whose left operand is a comparison (`a == b == c`). -/
def NoChain : Expr → Prop
  | .atom _ => True
  | .par e => NoChain e
  | .un _ e => NoChain e
  | .bin s l r => (goPrec s = 3 → goTop l ≠ 3) ∧ NoChain l ∧ NoChain r

/-- The value of an expression, given what the operators mean and the values of the operands. -/
def value (un : Sym → Nat → Nat) (bin : Sym → Nat → Nat → Nat) (v : Nat → Nat) : Expr → Nat
  | .atom n => v n
  | .par e => value un bin v e
  | .un s e => un s (value un bin v e)
  | .bin s l r => bin s (value un bin v l) (value un bin v r)

/-! ## Signed integers of `w + 1` bits -/

/-- The integers of the type. -/
def InRange (w : Nat) (i : Int) : Prop := -(2 ^ w : Int) ≤ i ∧ i < (2 ^ w : Int)

/-- The integer of the type that differs from `i` by a multiple of `2 ^ (w + 1)`. -/
def wrap (w : Nat) (i : Int) : Int := (i + 2 ^ w) % (2 ^ (w + 1)) - 2 ^ w

/-- The exact result of an operator. -/
def arith : Sym → Int → Int → Option Int
  | .add, a, b => some (a + b)
  | .sub, a, b => some (a - b)
  | .mul, a, b => some (a * b)
  | _, _, _ => none

/-- Go: "for signed integers the operations may legally overflow, and the resulting value exists and is
deterministically defined by the representation". -/
def goValue (w : Nat) (v : Nat → Int) : Expr → Option Int
  | .atom n => some (v n)
  | .par e => goValue w v e
  | .un .sub e => (goValue w v e).map fun a => wrap w (-a)
  | .un _ _ => none
  | .bin s l r =>
    match goValue w v l, goValue w v r with
    | some a, some b => (arith s a b).map (wrap w)
    | _, _ => none

/-- Zig: overflow of `+`, `-`, `*` and negation is illegal behaviour (a panic in safe modes). -/
inductive ZigValue (w : Nat) (v : Nat → Int) : Expr → Int → Prop
  | atom n : ZigValue w v (.atom n) (v n)
  | par e a : ZigValue w v e a → ZigValue w v (.par e) a
  | neg e a : ZigValue w v e a → InRange w (-a) → ZigValue w v (.un .sub e) (-a)
  | bin s l r a b c : ZigValue w v l a → ZigValue w v r b → arith s a b = some c → InRange w c →
      ZigValue w v (.bin s l r) c

end Verif.Zgo.Op.Spec
