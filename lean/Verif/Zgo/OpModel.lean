/-!
# zgo operators: model

`ExpressionBinary`, `Parenthesized` and `ExpressionUnary` (`zgo/internal/target/zigc/expressions.go:27-71`,
`:204-221`), which write operators between and before operands without adding parentheses.
-/
namespace Verif.Zgo.Op

/-- The operators of Go's binary and unary expressions (`go/token`; `expressions.go:46-53`, `:205-213`). -/
inductive Sym
  | mul | div | rem | shl | shr | and | andNot
  | add | sub | or | xor
  | eq | ne | lt | le | gt | ge
  | land | lor
  | bang
  deriving DecidableEq, Repr

/-- An expression of Go's syntax tree. An operand that is anything else (a name, a call, a literal; also the
comparison of strings with `!=`, which is written in parentheses, `expressions.go:28-38`) is an `atom`.
The operand of a unary operator other than `&` (`:205-213`). -/
inductive Expr
  | atom (n : Nat)
  | par (e : Expr)
  | un (s : Sym) (e : Expr)
  | bin (s : Sym) (l r : Expr)
  deriving DecidableEq, Repr

/-- The tokens Zig reads in what is written (`expressions.go:27-71`, `:204-221`). -/
inductive Tok
  | atom (n : Nat)
  | lpar
  | rpar
  | sym (s : Sym)
  | kwAnd
  | kwOr
  deriving DecidableEq, Repr

/-- `expressions.go:46-53`: `||` and `&&` become keywords, other operators are written as in Go. `&^` is not
one token in Zig. -/
def emitBinary : Sym → List Tok
  | .lor => [.kwOr]
  | .land => [.kwAnd]
  | .andNot => [.sym .and, .sym .xor]
  | s => [.sym s]

/-- `expressions.go:27-71`, `:204-221`. The suffix `.address` of pointers (`:42-45`, `:57-60`) is part of the
atoms. -/
def emit : Expr → List Tok
  | .atom n => [.atom n]
  | .par e => .lpar :: (emit e ++ [.rpar])
  | .un s e => .sym s :: emit e
  | .bin s l r => emit l ++ (emitBinary s ++ emit r)

end Verif.Zgo.Op
