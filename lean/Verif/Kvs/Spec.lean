import Verif.Kvs.Model

/-! Specification for key-value maps. -/
namespace Verif.Kvs
open Verif.Sql (load)
variable {K V : Type} [DecidableEq K]

/-- What a batch does to a mathematical map: deletions win over insertions, other keys keep their value. `ins` is the
batch's map. -/
def applied (f : K → Option V) (ins : List (K × V)) (del : List K) (k : K) : Option V :=
  if k ∈ del then none
  else match ins.find? (fun p => p.1 = k) with
    | some p => some p.2
    | none => f k

/-- The calls a user makes of an in-memory map. A commit also says in which order the runtime visits its map. -/
inductive Call (K V : Type) where
  | get (k : K)
  | set (k : K) (v : V)
  | del (k : K)
  | commit (ins order : List (K × V)) (del : List K)

/-- The batch is a Go map visited in some order. -/
def Call.Wf : Call K V → Prop
  | .commit ins order _ => (ins.map (·.1)).Nodup ∧ order.Perm ins
  | _ => True

/-- What a call does to the in-memory map, and what `Get` returns. -/
def runCall (m : List (K × V)) : Call K V → List (K × V) × Option (Out V)
  | .get k => (m, some (memGet m k))
  | .set k v => (memSet m k v, none)
  | .del k => (memDel m k, none)
  | .commit _ order del => (memCommit m order del, none)

/-- What it means: an absent key reads as the zero value. -/
def meant (zero : V) (f : K → Option V) : Call K V → (K → Option V) × Option (Out V)
  | .get k => (f, some (.ret ((f k).getD zero)))
  | .set k v => (fun k' => if k' = k then some v else f k', none)
  | .del k => (fun k' => if k' = k then none else f k', none)
  | .commit ins _ del => (applied f ins del, none)

/-- The results of a sequence of calls. -/
def results {S A C : Type} (step : S → C → S × A) : S → List C → List A
  | _, [] => []
  | s, c :: cs => (step s c).2 :: results step (step s c).1 cs

/-- Every `Get` of the history asks for a key that is present. -/
def GetsPresent (f : K → Option V) : List (Call K V) → Prop
  | [] => True
  | .get k :: cs => (f k).isSome = true ∧ GetsPresent f cs
  | .set k v :: cs => GetsPresent (fun k' => if k' = k then some v else f k') cs
  | .del k :: cs => GetsPresent (fun k' => if k' = k then none else f k') cs
  | .commit ins _ del :: cs => GetsPresent (applied f ins del) cs

/-- C25: all histories of calls on an in-memory map answer like a mathematical map. -/
def KvsIsAMap : Prop :=
  ∀ (zero : Nat) (cs : List (Call Nat Nat)), (∀ c ∈ cs, c.Wf) → results runCall [] cs = results (meant zero) (fun _ => none) cs

end Verif.Kvs
