/-
Model of transactions: `(*Map).Manage` and `manage` of sql/map.go:466-504, and the way the other methods use the channel of
a transaction (sql/map.go:126-136, 184-194, 231-241, 281-293, 401-410, 431-440).

Simplifications, stated once: what a method does to the table is a function of the table, its job; a table is an abstract
state. The database does what sodium documents (sql/std/sodium/sql.go:41-46): a job sent to the channel works on the
transaction's own view, closing the channel commits that view. Contexts are not cancelled and the database does not fail.
-/
namespace Verif.Sql.Tx

/-- The function given to `Manage` (sql/map.go:480): it returns, calls a method of the map and goes on with its answer, or
calls `Manage` again and goes on with its error. `true` is an error. -/
inductive Prog (σ α : Type) where
  | ret (err : Bool)
  | call (job : σ → σ × α) (next : α → Prog σ α)
  | nest (body : Prog σ α) (next : Bool → Prog σ α)

variable {σ α : Type}

/-- A transaction of the database: the table as others see it, as the transaction sees it, and whether the channel is open
(sql/std/sodium/sql.go:41-46). -/
structure DbTx (σ : Type) where
  committed : σ
  view : σ
  isOpen : Bool

/-- How a call ends: with an error or without, with a panic, or never (sql/map.go:480-496). -/
inductive End where
  | done (err : Bool)
  | panics
  | hangs
  deriving DecidableEq

/-- `tx <- job; close(tx)` as in every method (sql/map.go:126-132, 184-190, 231-237, 281-288, 401-406, 431-436): sending on
a closed channel panics, `none`. -/
def send (d : DbTx σ) (job : σ → σ × α) : Option (DbTx σ × α) :=
  if d.isOpen then some (⟨(job d.view).1, (job d.view).1, false⟩, (job d.view).2) else none

/-- The function given to `Manage`, with the channel of the transaction in its context: `manage`, sql/map.go:473-478, finds
it, and a nested `Manage` uses it too (line 486). -/
def body : Prog σ α → DbTx σ → DbTx σ × End
  | .ret e, d => (d, .done e)
  | .call job next, d =>
    match send d job with
    | none => (d, .panics)
    | some (d', a) => body (next a) d'
  | .nest p next, d =>
    match body p d with
    | (d', .done e) => body (next e) d'
    | r => r

/-- `Manage` on a database, sql/map.go:486-495: a new transaction, and then only the function. -/
def manageDb (p : Prog σ α) (s : σ) : DbTx σ × End := body p ⟨s, s, true⟩

/-- The function given to `Manage` of a map in memory, which holds the lock: the calls work on the map itself, and a nested
`Manage` waits for the lock for ever (sql/map.go:482). -/
def memBody : Prog σ α → σ → σ × End
  | .ret e, s => (s, .done e)
  | .call job next, s => memBody (next (job s).2) (job s).1
  | .nest _ _, s => (s, .hangs)

/-- `Manage` of a map in memory, sql/map.go:481-484. -/
def manageMem (p : Prog σ α) (s : σ) : σ × End := memBody p s

/-! ### Several goroutines, maps in memory -/

/-- What a goroutine does next: run a transaction, or call a method outside one (sql/map.go:471, 480-484). -/
inductive Task (σ α : Type) where
  | tx (p : Prog σ α)
  | outside (job : σ → σ × α)

/-- A moment: the map, who holds `transactionLock` with what is left of its transaction, what every goroutine has still to
do, and what has ended so far, latest last: the goroutine and what its calls answered (sql/map.go:468, 480-484). -/
structure Moment (σ α : Type) where
  mem : σ
  lock : Option (Nat × Prog σ α × List α)
  todo : Nat → List (Task σ α)

/-- A step of some goroutine. A call is one step: only calls outside transactions could see inside it. `ended` is the transaction that ends with it, with its answers. -/
inductive Step : Moment σ α → Option (Nat × Prog σ α) → Option (Nat × List α × Bool) → Moment σ α → Prop
  /-- `transactionLock.Lock()`, sql/map.go:482. -/
  | lock {m g p ts} : m.lock = none → m.todo g = .tx p :: ts →
      Step m (some (g, p)) none ⟨m.mem, some (g, p, []), fun h => if h = g then ts else m.todo h⟩
  /-- A call inside a transaction, sql/map.go:484. -/
  | call {m g job next as} : m.lock = some (g, .call job next, as) →
      Step m none none ⟨(job m.mem).1, some (g, next (job m.mem).2, as ++ [(job m.mem).2]), m.todo⟩
  /-- `transactionLock.Unlock()`, sql/map.go:483. -/
  | unlock {m g e as} : m.lock = some (g, .ret e, as) → Step m none (some (g, as, e)) ⟨m.mem, none, m.todo⟩
  /-- A call outside a transaction takes no lock, sql/map.go:178. -/
  | outside {m g job ts} : m.todo g = .outside job :: ts → (∀ p as, m.lock ≠ some (g, p, as)) →
      Step m none none ⟨(job m.mem).1, m.lock, fun h => if h = g then ts else m.todo h⟩

/-- Any number of steps, with the transactions that began and those that ended (sql/map.go:480-484). -/
inductive Steps : Moment σ α → List (Nat × Prog σ α) → List (Nat × List α × Bool) → Moment σ α → Prop
  | refl (m) : Steps m [] [] m
  | step {m b e m' bs es m''} : Steps m bs es m' → Step m' b e m'' → Steps m (bs ++ b.toList) (es ++ e.toList) m''

end Verif.Sql.Tx
