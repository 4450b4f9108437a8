import Verif.Mmm.Model

/-! Specification vocabulary for mmm: which allocations a log of events has ended, and what a client that
keeps to the rules of the package may do. -/
namespace Verif.Mmm

/-- The allocations that were ended (freed or moved away) according to the events. -/
def ended : List Ev → List Hdl
  | [] => []
  | .freed h _ :: t => h :: ended t
  | .moved h :: t => h :: ended t
  | _ :: t => ended t

/-- The name of the allocation behind a handle, as it appears in events. -/
def Hdl.name (h : Hdl) : Hdl := ⟨h.ref, h.rev % 2 ^ 62⟩

/-- The allocation has an API, as the package expects of every pointer. -/
def HasApi : Op → Prop
  | .new _ _ api _ _ => api = true
  | _ => True

/-- The allocation has an API and the client never stores the zero value in a managed pointer. -/
def Sane : Op → Prop
  | .new _ _ api v _ => api = true ∧ v ≠ 0
  | .set _ v => v ≠ 0
  | _ => True

theorem Sane.hasApi {op} (h : Sane op) : HasApi op := by
  cases op <;> simp_all [Sane, HasApi]

/-! An abstract account of which pointers are alive in which lifetime, newest first. It knows nothing about
blocks, links, revisions or pools. -/

/-- `lifes[l]` is the stack of pointers alive in lifetime `l`, or `none` once it has ended; `vals[p]` is the
value stored in pointer `p`; `pins[p]` says whether it was pinned. -/
structure Abs where
  lifes : List (Option (List Nat))
  vals : List Nat
  pins : List Bool

/-- Nothing yet. -/
def Abs.init : Abs := ⟨[], [], []⟩

/-- The pointer is alive in some lifetime. -/
def Abs.Live (a : Abs) (p : Nat) : Prop := ∃ (l : Nat) (st : List Nat), a.lifes[l]? = some (some st) ∧ p ∈ st

/-- The pointer is the newest live pointer of its lifetime. -/
def Abs.Newest (a : Abs) (p : Nat) : Prop := ∃ (l : Nat) (t : List Nat), a.lifes[l]? = some (some (p :: t))

/-- The lifetime has not ended. -/
def Abs.Open (a : Abs) (l : Nat) : Prop := ∃ st, a.lifes[l]? = some (some st)

/-- Forget a pointer. -/
def Abs.remove (a : Abs) (p : Nat) : Abs :=
  { a with lifes := a.lifes.map (Option.map (List.filter (· ≠ p))) }

/-- A new pointer in lifetime `l`. -/
def Abs.push (a : Abs) (l v : Nat) (pin : Bool) : Abs :=
  ⟨a.lifes.modify l (Option.map (a.vals.length :: ·)), a.vals ++ [v], a.pins ++ [pin]⟩

open Classical in
/-- What each operation is meant to do. Moving a pointer ends it and allocates a new one elsewhere. -/
noncomputable def Abs.step (a : Abs) : Op → Abs
  | .newLifetime _ => { a with lifes := a.lifes ++ [some []] }
  | .new l _ _ v pin => a.push l v pin
  | .get _ => a
  | .set p v => { a with vals := a.vals.set p v }
  | .free p => a.remove p
  | .move p l _ => if a.Live p then (a.remove p).push l (a.vals.getD p 0) false else a
  | .life _ => a
  | .endLife l => { a with lifes := a.lifes.set l none }

/-- A client that frees and moves individual pointers only in last-in-first-out order, allocates only in
lifetimes that are open, never stores zero, does not move pinned pointers and does not use pinned pointers as
lifetimes. Using pointers or lifetimes that have ended is allowed. -/
def Disciplined (a : Abs) : Op → Prop
  | .newLifetime _ => True
  | .new l _ api v _ => api = true ∧ v ≠ 0 ∧ a.Open l
  | .get _ => True
  | .set _ v => v ≠ 0
  | .free p => a.Live p → a.Newest p
  | .move p l _ => a.Live p → a.Newest p ∧ a.pins[p]? = some false ∧ a.Open l
  | .life _ => False
  | .endLife _ => True

/-- Every step of the history is disciplined. -/
noncomputable def DisciplinedRun (a : Abs) : List Op → Prop
  | [] => True
  | op :: t => Disciplined a op ∧ DisciplinedRun (a.step op) t

/-- The abstract state after a history. -/
noncomputable def Abs.run (a : Abs) : List Op → Abs
  | [] => a
  | op :: t => (a.step op).run t

/-- The event that releases the client's pointer `p` together with the value it holds. -/
def freedEv (s : St) (a : Abs) (p : Nat) : Ev := .freed (s.ptrs.getD p ⟨0, 0⟩).name (a.vals.getD p 0)

end Verif.Mmm
