import Verif.Sql.TxModel

/-! Specification for C211: what a transaction should do. -/
namespace Verif.Sql.Tx

variable {σ α : Type}

/-- The calls one after another: the table they leave, their answers, and whether the function returns an error. A nested
transaction is part of the outer one. -/
def Prog.alone : Prog σ α → σ → σ × List α × Bool
  | .ret e, s => (s, [], e)
  | .call job next, s => let r := (next (job s).2).alone (job s).1; (r.1, (job s).2 :: r.2.1, r.2.2)
  | .nest p next, s => let r := p.alone s; let q := (next r.2.2).alone r.1; (q.1, r.2.1 ++ q.2.1, q.2.2)

/-- All or nothing: the table after a transaction. -/
def Prog.after (p : Prog σ α) (s : σ) : σ := if (p.alone s).2.2 then s else (p.alone s).1

/-- A transaction on a database does what it should: it ends with the function's error, all of its changes are committed or
none, and it is over. -/
def DbOk (p : Prog σ α) (s : σ) : Prop :=
  (manageDb p s).2 = .done (p.alone s).2.2 ∧ (manageDb p s).1.committed = p.after s ∧ (manageDb p s).1.isOpen = false

/-- The same for a map in memory. -/
def MemOk (p : Prog σ α) (s : σ) : Prop := (manageMem p s).2 = .done (p.alone s).2.2 ∧ (manageMem p s).1 = p.after s

/-- The function comes to a nested `Manage`. -/
def Prog.Nests : Prog σ α → σ → Prop
  | .ret _, _ => False
  | .call job next, s => (next (job s).2).Nests (job s).1
  | .nest _ _, _ => True

/-- There is no nested `Manage` in the function. -/
def Prog.Flat : Prog σ α → Prop
  | .ret _ => True
  | .call _ next => ∀ a, (next a).Flat
  | .nest _ _ => False

/-- Transactions one after another: the table they leave, and what each answered. -/
def serial : List (Nat × Prog σ α) → σ → σ × List (Nat × List α × Bool)
  | [], s => (s, [])
  | (g, p) :: ps, s => let r := p.alone s; let q := serial ps r.1; (q.1, (g, r.2.1, r.2.2) :: q.2)

/-- The transactions that a goroutine has still to run. -/
def txs : List (Task σ α) → List (Prog σ α)
  | [] => []
  | .tx p :: ts => p :: txs ts
  | .outside _ :: ts => txs ts

end Verif.Sql.Tx
