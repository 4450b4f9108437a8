import Verif.Kvs.ConcModel

/-! # Concurrent calls of an in-memory key-value map: specification (C206) -/
namespace Verif.Kvs.Conc
variable {K V : Type} [DecidableEq K]

/-- The goroutines' sequences happen in the order `s`: what belongs to a goroutine is its sequence. -/
def Interleaves {α : Type} (prog : Nat → List α) (s : List (Nat × α)) : Prop :=
  ∀ t, (s.filter fun p => p.1 = t).map (·.2) = prog t

/-- The operations the calls of the goroutines make happen in the order `s`. -/
def Runs (calls : Nat → List (Call K V)) (s : List (Nat × Step K V)) : Prop :=
  Interleaves (fun t => (calls t).flatMap steps) s

/-- What a call does to a mathematical map. -/
def effect (f : K → Option V) : Call K V → K → Option V
  | .get _ => f
  | .set k v => fun k' => if k' = k then some v else f k'
  | .del k => fun k' => if k' = k then none else f k'
  | .commit ins _ del => applied f ins del

/-- The map after whole calls, one after the other. -/
def inTurn (f : K → Option V) (cs : List (Call K V)) : K → Option V := cs.foldl effect f

/-- What the `get`s among whole calls, one after the other, find. -/
def seen (f : K → Option V) : List (Nat × Call K V) → List (Nat × K × Option V)
  | [] => []
  | (t, .get k) :: cs => (t, k, f k) :: seen f cs
  | (_, c) :: cs => seen (effect f c) cs

/-- The call says something about the key. -/
def Mentions (k : K) : Call K V → Prop
  | .get _ => False
  | .set k' _ => k = k'
  | .del k' => k = k'
  | .commit ins _ del => k ∈ ins.map (·.1) ∨ k ∈ del

/-- The call inserts the value at the key. -/
def Inserts (k : K) (v : V) : Call K V → Prop
  | .set k' v' => k = k' ∧ v = v'
  | .commit ins _ _ => (k, v) ∈ ins
  | _ => False

/-- The call deletes the key. -/
def Deletes (k : K) : Call K V → Prop
  | .del k' => k = k'
  | .commit _ _ del => k ∈ del
  | _ => False

/-- The call concerns one key: a `Get`, `Set` or `Del`. -/
def Single : Call K V → Prop
  | .commit _ _ _ => False
  | _ => True

/-- C206: however the goroutines' calls interleave, what is found and what is left is as if whole calls had been made one
after the other, in an order that keeps every goroutine's own. -/
def CallsAreAtomic : Prop :=
  ∀ (calls : Nat → List (Call Nat Nat)) (s : List (Nat × Step Nat Nat)), (∀ t, ∀ c ∈ calls t, c.Wf) → Runs calls s →
    ∃ order, Interleaves calls order ∧ Verif.Sql.load (after [] s) = inTurn (fun _ => none) (order.map (·.2)) ∧
      found [] s = seen (fun _ => none) order

end Verif.Kvs.Conc
