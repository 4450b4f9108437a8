/-!
# zgo: deferred calls and the memory of goroutines: model

`FunctionDefinition` marks the defer statements among the statements of a function's body (`zgo/internal/target/zigc/function.go:17-23`),
`StatementDefer` writes those as Zig's `defer` and refuses the others (`statements.go:80-87`); function literals mark none
(`expressions.go:73-110`). `panic` is Zig's `@panic` (`builtins.go:177-187`).

A statement without a defer statement in it is what it does to the state; it may go on, return or panic. The state, the
arguments of calls and the results are of any types. Deferred calls end normally.
-/
namespace Verif.Zgo.Defer

variable {σ V R : Type}

/-- How a statement ends (`statements.go:108-117`, `builtins.go:177-187`). -/
inductive Out (σ R : Type) where
  | next (s : σ)
  | ret (r : R) (s : σ)
  | panic (s : σ)

mutual
/-- A Go statement (`zgo/internal/source/statements.go`). -/
inductive Stmt (σ V R : Type) where
  /-- any statement without a defer in it -/
  | simple (f : σ → Out σ R)
  /-- `defer fn(args)` to a function with or without a result -/
  | defer (args : σ → V) (fn : V → σ → σ) (result : Bool)
  /-- `if c { b }` -/
  | cond (c : σ → Bool) (b : Stmts σ V R)
/-- Statements of a body or block (`zgo/internal/source/statements.go`). -/
inductive Stmts (σ V R : Type) where
  | nil
  | cons (s : Stmt σ V R) (rest : Stmts σ V R)
end

mutual
/-- A Zig statement, as written (`statements.go:80-87`, `branches.go:10-44`). -/
inductive ZStmt (σ V R : Type) where
  | simple (f : σ → Out σ R)
  | defer (args : σ → V) (fn : V → σ → σ) (result : Bool)
  | cond (c : σ → Bool) (b : ZStmts σ V R)
/-- Statements written one after the other (`function.go:120-126`). -/
inductive ZStmts (σ V R : Type) where
  | nil
  | cons (s : ZStmt σ V R) (rest : ZStmts σ V R)
end

mutual
/-- `Statement` (`statements.go:12-56`), given whether it is a statement of the function's body. `none`: "only defer at the outermost scope of a
function is currently supported" (`statements.go:86`). -/
def compileStmt (outermost : Bool) : Stmt σ V R → Option (ZStmt σ V R)
  | .simple f => some (.simple f)
  | .defer a f r => if outermost then some (.defer a f r) else none
  | .cond c b => (compileStmts false b).map (.cond c)
/-- The statements of a body (`function.go:120-126`) or block (`branches.go:26-34`). -/
def compileStmts (outermost : Bool) : Stmts σ V R → Option (ZStmts σ V R)
  | .nil => some .nil
  | .cons s rest => (compileStmt outermost s).bind fun z => (compileStmts outermost rest).map (.cons z)
end

/-- `FunctionDefinition` (`function.go:12-126`): the statements of the body are the outermost. -/
def compileFunction (b : Stmts σ V R) : Option (ZStmts σ V R) := compileStmts true b

/-- `ExpressionFunction` (`expressions.go:73-110`): no statement is marked. -/
def compileLiteral (b : Stmts σ V R) : Option (ZStmts σ V R) := compileStmts false b

mutual
/-- Zig's compiler: the value of a deferred expression must be void. -/
def accepts : ZStmts σ V R → Bool
  | .nil => true
  | .cons s rest => acceptsStmt s && accepts rest
/-- A statement Zig accepts. -/
def acceptsStmt : ZStmt σ V R → Bool
  | .simple _ => true
  | .defer _ _ r => !r
  | .cond _ b => accepts b
end

mutual
/-- Zig's semantics of a block: `defer e` runs `e`, with the values its operands have then, when the block is left by its end or by
return; `@panic` ends the program. -/
def zrun : ZStmts σ V R → σ → Out σ R
  | .nil, s => .next s
  | .cons (.simple f) rest, s =>
    match f s with
    | .next s' => zrun rest s'
    | .ret r s' => .ret r s'
    | .panic s' => .panic s'
  | .cons (.cond c b) rest, s =>
    if c s then
      match zrun b s with
      | .next s' => zrun rest s'
      | .ret r s' => .ret r s'
      | .panic s' => .panic s'
    else zrun rest s
  | .cons (.defer a f _) rest, s =>
    match zrun rest s with
    | .next s' => .next (f (a s') s')
    | .ret r s' => .ret r (f (a s') s')
    | .panic s' => .panic s'
end

end Verif.Zgo.Defer
