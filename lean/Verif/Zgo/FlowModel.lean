/-!
# zgo control flow: model

`StatementFor`, `StatementRange`, `StatementContinue` (`zgo/internal/target/zigc/loops.go`), `StatementIf`,
`StatementSwitch` (`branches.go`), `StatementBreak`, `StatementBlock`, `SwitchCaseClause`
(`statements.go`), with the labels and clauses as `zgo/internal/parser/statements.go` loads them.

Simple statements and conditions are numbers; what they do is a parameter of the semantics.
-/
namespace Verif.Zgo.Flow

mutual
/-- A Go statement (`zgo/internal/source/statements.go`). -/
inductive Stmt
  | act (n : Nat)
  | block (b : Stmts)
  /-- `if init; c { t } else { e }` -/
  | cond (init : Option Nat) (c : Nat) (t e : Stmts)
  /-- `label: for init; c; post { b }` -/
  | loop (label : Option Nat) (init : Option Nat) (c : Nat) (post : Option Nat) (b : Stmts)
  /-- `label: for … := range src { b }` -/
  | range (label : Option Nat) (src : Nat) (b : Stmts)
  /-- `switch init; tag { … }` -/
  | switch (init : Option Nat) (tag : Nat) (cs : Clauses)
  | brk (label : Option Nat)
  | cont (label : Option Nat)
  | ret
  /-- A label on any other statement, such as a switch. -/
  | labelled (label : Nat) (s : Stmt)

/-- A statement list (`zgo/internal/source/statements.go`). -/
inductive Stmts
  | nil
  | cons (s : Stmt) (rest : Stmts)

/-- The clauses of a switch: the values (`none` for `default`), the statements, and whether it ends with
`fallthrough` (`parser/statements.go:320-337`). -/
inductive Clauses
  | nil
  | cons (guard : Option (List Int)) (body : Stmts) (falls : Bool) (rest : Clauses)
end

mutual
/-- A Zig statement, as written by `zgo/internal/target/zigc/statements.go:57-176`, `loops.go:11-144`,
`branches.go:10-72`. -/
inductive ZStmt
  | act (n : Nat)
  | block (label : Option Nat) (b : ZStmts)
  | cond (c : Nat) (t e : ZStmts)
  /-- `label: while (c) : (post) { b }` -/
  | loop (label : Option Nat) (c : Nat) (post : Option Nat) (b : ZStmts)
  /-- `label: for (src) |…| body` -/
  | range (label : Option Nat) (src : Nat) (body : ZStmt)
  | switch (tag : Nat) (cs : ZClauses)
  | brk (label : Option Nat)
  | cont (label : Option Nat)
  | ret

/-- The statements written one after the other (`statements.go:57-69`). -/
inductive ZStmts
  | nil
  | cons (s : ZStmt) (rest : ZStmts)

/-- The prongs of a Zig `switch` (`statements.go:151-176`). -/
inductive ZClauses
  | nil
  | cons (guard : Option (List Int)) (body : ZStmts) (rest : ZClauses)
end

/-- A statement after an initial statement, in braces (`loops.go:12-18`, `:53-55`, `branches.go:47-54`,
`:70`). -/
def withInit (init : Option Nat) (z : ZStmt) : ZStmt :=
  match init with
  | none => z
  | some i => .block none (.cons (.act i) (.cons z .nil))

mutual
/-- What a statement is compiled to; `none` if the compiler refuses it or writes what is not a statement
(`statements.go:14-98`, lines beside each case). -/
def compile : Stmt → Option ZStmt
  | .act n => some (.act n)
  | .block b => (compileAll b).map (.block none)          -- statements.go:57-69
  | .cond (some _) _ _ _ => none                           -- branches.go:12-18: the brace is never closed
  | .cond none c t e =>                                    -- branches.go:19-43
    match compileAll t, compileAll e with
    | some t', some e' => some (.cond c t' e')
    | _, _ => none
  | .loop label init c post b =>                           -- loops.go:11-57
    (compileAll b).map fun b' => withInit init (.loop label c post b')
  | .range label src b =>                                  -- loops.go:59-135: the label is written before the body
    (compileAll b).map fun b' => .range none src (.block label b')
  | .switch init tag cs =>                                 -- branches.go:46-72
    (compileClauses cs).map fun cs' => withInit init (.switch tag cs')
  | .brk label => some (.brk label)                        -- statements.go:91-98
  | .cont label => some (.cont label)                      -- loops.go:137-144
  | .ret => some .ret
  | .labelled _ _ => none                                  -- zigc.go:24-28: no method StatementLabel

/-- The statements of a block in order (`statements.go:57-69`). -/
def compileAll : Stmts → Option ZStmts
  | .nil => some .nil
  | .cons s rest =>
    match compile s, compileAll rest with
    | some z, some zs => some (.cons z zs)
    | _, _ => none

/-- `statements.go:151-176`: `Fallsthrough` is not looked at. -/
def compileClauses : Clauses → Option ZClauses
  | .nil => some .nil
  | .cons guard body _ rest =>
    match compileAll body, compileClauses rest with
    | some b, some r => some (.cons guard b r)
    | _, _ => none
end

/-! ## The braces that are written -/

mutual
/-- The braces of a statement's text, `true` for an opening one (`statements.go:57-176`,
`loops.go:11-144`, `branches.go:10-72`). -/
def braces : Stmt → List Bool
  | .act _ => []
  | .block b => true :: (bracesAll b ++ [false])                               -- statements.go:57-69
  | .cond init _ t e =>                                                         -- branches.go:10-44
    (if init.isSome then [true] else []) ++ true :: (bracesAll t ++ [false]) ++ bracesElse e
  | .loop _ init _ _ b =>                                                       -- loops.go:11-57
    (if init.isSome then [true] else []) ++ true :: (bracesAll b ++ [false]) ++
      (if init.isSome then [false] else [])
  | .range _ _ b => true :: (bracesAll b ++ [false])                           -- loops.go:59-135
  | .switch _ _ cs => [true, true] ++ bracesClauses cs ++ [false, false]       -- branches.go:46-72
  | .brk _ => []
  | .cont _ => []
  | .ret => []
  | .labelled _ s => braces s

/-- The braces of the statements of a block (`statements.go:57-69`). -/
def bracesAll : Stmts → List Bool
  | .nil => []
  | .cons s rest => braces s ++ bracesAll rest

/-- `branches.go:32-39`: the `else` of a statement is a block or another `if`. -/
def bracesElse : Stmts → List Bool
  | .nil => []
  | .cons s rest => (true :: (braces s ++ bracesAll rest)) ++ [false]

/-- The braces of the prongs (`statements.go:151-176`). -/
def bracesClauses : Clauses → List Bool
  | .nil => []
  | .cons _ body _ rest => (true :: (bracesAll body ++ [false])) ++ bracesClauses rest
end

end Verif.Zgo.Flow
