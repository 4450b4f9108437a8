/-!
# Pinned pointers of a program: model

`Program.pin` (`api/call/internal/cpu/cpu.go:51-84`) and the instructions `PointerMake`, `PointerFree` and `PointerLoad`
(`api/call/internal/cpu/run.go:246-257`, `ptr.go:3-6`). The mutex makes every operation one step; `runtime.Pinner` is the
list of what it pins. Pointers are numbered in the order they are made.
-/
namespace Verif.Vm.Pin

/-- `pins` (`cpu.go:51-54`): whether the slot is free, and what its `runtime.Pinner` pins. -/
structure Slot where
  free : Bool
  pins : List Nat
  deriving DecidableEq, Repr

/-- A `Pointer` (`ptr.go:3-6`): the address, and the slot that its `free` is about. -/
structure Ptr where
  addr : Nat
  slot : Nat
  deriving DecidableEq, Repr

/-- The pool of a program (`cpu.go:37-38`) and the pointers made so far. -/
structure St where
  slots : List Slot
  ptrs : List Ptr
  deriving Repr

/-- The loop over the slots (`cpu.go:59-71`): the first free one. -/
def firstFree : List Slot → Nat → Option Nat
  | [], _ => none
  | s :: ss, i => if s.free then some i else firstFree ss (i + 1)

/-- `pin` (`cpu.go:56-84`): the pool and the slot. -/
def pin (slots : List Slot) (p : Nat) : List Slot × Nat :=
  match firstFree slots 0 with
  | some i => (slots.modify i (fun s => ⟨false, p :: s.pins⟩), i)
  | none => (slots ++ [⟨false, [p]⟩], slots.length)

/-- The function that `pin` returns (`cpu.go:64-69`, `:78-83`). -/
def unpin (slots : List Slot) (i : Nat) : List Slot := slots.modify i (fun _ => ⟨true, []⟩)

/-- What programs do with pointers. -/
inductive Op
  /-- `PointerMake` of an address (`run.go:246-250`). -/
  | make (addr : Nat)
  /-- `PointerFree` of the pointer of that number (`run.go:251-253`). -/
  | free (p : Nat)
  deriving DecidableEq, Repr

/-- One operation; freeing what is no pointer does nothing here (`run.go:246-253`). -/
def step (s : St) : Op → St
  | .make a => let r := pin s.slots s.ptrs.length; ⟨r.1, s.ptrs ++ [⟨a, r.2⟩]⟩
  | .free p =>
    match s.ptrs[p]? with
    | some q => { s with slots := unpin s.slots q.slot }
    | none => s

/-- The pool after a history, of whatever goroutines (`cpu.go:57`: one at a time). -/
def after : List Op → St
  | [] => ⟨[], []⟩
  | op :: ops => step (after ops) op

/-- `PointerLoad` (`run.go:256-258`). -/
def load (s : St) (p : Nat) : Option Nat := (s.ptrs[p]?).map (·.addr)

/-- What the garbage collector must not move or free: what some `runtime.Pinner` pins (`cpu.go:61`, `:73`). -/
def pinned (s : St) (p : Nat) : Prop := ∃ sl ∈ s.slots, p ∈ sl.pins

end Verif.Vm.Pin
