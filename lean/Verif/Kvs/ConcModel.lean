import Verif.Kvs.Spec

/-!
# Concurrent calls of an in-memory key-value map: model

The map of `New` (`kvs/kvs.go:78-101`) is a `sync.Map`, whose `Load`, `Store` and `Delete` are atomic. A call is the sequence
of them it makes; goroutines interleave between them.
-/
namespace Verif.Kvs.Conc
open Verif.Sql (load store delete)
variable {K V : Type} [DecidableEq K]

/-- The atomic operations of a `sync.Map` (`kvs/kvs.go:82`, `:87`, `:90`). -/
inductive Step (K V : Type) where
  | load (k : K)
  | store (k : K) (v : V)
  | delete (k : K)
  deriving DecidableEq

/-- The operations a call makes (`kvs/kvs.go:59-70`, `:81-93`): a commit stores its insertions, in the order Go visits them, and
then deletes. -/
def steps : Call K V → List (Step K V)
  | .get k => [.load k]
  | .set k v => [.store k v]
  | .del k => [.delete k]
  | .commit _ order del => order.map (fun p => .store p.1 p.2) ++ del.map .delete

/-- What one operation does to the map (`kvs/kvs.go:82-91`). -/
def exec (m : List (K × V)) : Step K V → List (K × V)
  | .load _ => m
  | .store k v => store m k v
  | .delete k => delete m k

/-- The map after the operations of all goroutines, in the order they happened (`kvs/kvs.go:78-101`). -/
def after (m : List (K × V)) (s : List (Nat × Step K V)) : List (K × V) := s.foldl (fun m p => exec m p.2) m

/-- What the loads find: goroutine, key and result of `DB.Load` (`kvs/kvs.go:82`; what `Lookup` makes of it is C106). -/
def found (m : List (K × V)) : List (Nat × Step K V) → List (Nat × K × Option V)
  | [] => []
  | (t, .load k) :: s => (t, k, load m k) :: found m s
  | (_, .store k v) :: s => found (store m k v) s
  | (_, .delete k) :: s => found (delete m k) s

end Verif.Kvs.Conc
