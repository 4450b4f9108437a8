import Verif.Sql.Model

/-
Model of kvs/kvs.go.

Simplifications, stated once:
* `sync.Map` is modelled as in Verif/Sql/Model.lean (`load`, `store`, `delete`). A Go `map` handed to `Commit` is a list of
  pairs with different keys; ranging over it visits the pairs in any order, so `Commit` takes the order as its argument.
* Every call runs on its own. Contexts are not modelled.
* A `Database` is a map each of whose calls may fail, leaving the map unchanged; `oracle` says which calls fail.
-/
namespace Verif.Kvs
open Verif.Sql (load store delete)

variable {K V : Type} [DecidableEq K]

/-- What a call of the in-memory map does: return or panic (kvs/kvs.go:72-101). -/
inductive Out (α : Type) where
  | ret (a : α)
  | panic
  deriving DecidableEq

/-- `Lookup` of `New`, kvs/kvs.go:81-84: `val.(V)` panics when `val` is nil. -/
def memLookup (m : List (K × V)) (k : K) : Out (V × Bool) :=
  match load m k with
  | none => .panic
  | some v => .ret (v, true)

/-- `Commit` of `New`, kvs/kvs.go:85-93. -/
def memCommit (m : List (K × V)) (insert : List (K × V)) (del : List K) : List (K × V) :=
  del.foldl delete (insert.foldl (fun m p => store m p.1 p.2) m)

/-- `Map.Get`, kvs/kvs.go:59-62. -/
def memGet (m : List (K × V)) (k : K) : Out V :=
  match memLookup m k with
  | .panic => .panic
  | .ret (v, _) => .ret v

/-- `Map.Set`, kvs/kvs.go:64-66. -/
def memSet (m : List (K × V)) (k : K) (v : V) : List (K × V) := memCommit m [(k, v)] []

/-- `Map.Del`, kvs/kvs.go:68-70. -/
def memDel (m : List (K × V)) (k : K) : List (K × V) := memCommit m [] [k]

/-- `Values` of `New`, kvs/kvs.go:94-100: `order` is the order in which `Range` visits the keys, `continue_` what the
consumer answers; the filter is not looked at. -/
def memValues (m : List (K × V)) (order : List K) (continue_ : List (K × V) → Bool) (sofar : List (K × V)) : List (K × V) :=
  match order with
  | [] => sofar
  | k :: ks =>
    match load m k with
    | none => memValues m ks continue_ sofar
    | some v => if continue_ (sofar ++ [(k, v)]) then memValues m ks continue_ (sofar ++ [(k, v)]) else sofar ++ [(k, v)]

/-- A database and how many calls it has served (kvs/kvs.go:14-56). -/
structure Db (K V : Type) where
  map : List (K × V)
  calls : Nat

/-- The insert loop of `Commit` of `open`, kvs/kvs.go:24-28. The answer is whether a call failed. -/
def dbInserts (oracle : Nat → Bool) (d : Db K V) : List (K × V) → Db K V × Bool
  | [] => (d, false)
  | (k, v) :: ps => if oracle d.calls then (⟨d.map, d.calls + 1⟩, true) else dbInserts oracle ⟨store d.map k v, d.calls + 1⟩ ps

/-- The delete loop, kvs/kvs.go:29-33. -/
def dbDeletes (oracle : Nat → Bool) (d : Db K V) : List K → Db K V × Bool
  | [] => (d, false)
  | k :: ks => if oracle d.calls then (⟨d.map, d.calls + 1⟩, true) else dbDeletes oracle ⟨delete d.map k, d.calls + 1⟩ ks

/-- `Commit` of `open`, kvs/kvs.go:23-35. -/
def dbCommit (oracle : Nat → Bool) (d : Db K V) (insert : List (K × V)) (del : List K) : Db K V × Bool :=
  match dbInserts oracle d insert with
  | (d, true) => (d, true)
  | (d, false) => dbDeletes oracle d del

/-- `Lookup` of `open`, kvs/kvs.go:18-22: the zero value when the key is absent. `none` is an error. -/
def dbLookup (oracle : Nat → Bool) (d : Db K V) (zero : V) (k : K) : Db K V × Option (V × Bool) :=
  if oracle d.calls then (⟨d.map, d.calls + 1⟩, none)
  else (⟨d.map, d.calls + 1⟩, some (match load d.map k with | some v => (v, true) | none => (zero, false)))

end Verif.Kvs
