import Verif.Vm.Model
/-!
# Strings in calls: model

The instructions `StringMake`, `StringSize` and `StringCopy` (`api/call/internal/cpu/run.go:259-285`) on the machine of
`Verif.Vm.Model` with a memory, and what `compile` writes for strings (`api/call/internal/ffi/asm.go:176-194`). Addresses
are 64 bits; memory from `next` on is not in use, and new blocks are taken from there, with gaps as the allocator likes.
-/
namespace Verif.Vm.Str
open Verif.Abi

/-- Bytes by address. -/
abbrev Mem := Nat → BitVec 8

/-- The machine (`run.go:56-71`) and its memory. -/
structure S where
  m : M
  mem : Mem
  next : Nat

/-- What it runs in: the instructions without memory, the function that is called, which is given registers and memory
(`run.go:193-204`), and the allocator's gaps. -/
structure World where
  env : Env
  call : (Nat → W) → Mem → (Nat → W)
  gap : Nat → Nat

/-- The `n` bytes at an address: `unsafe.Slice` (`run.go:279`). -/
def bytes (mem : Mem) (p n : Nat) : List (BitVec 8) := (List.range n).map (fun i => mem (p + i))

/-- Writing bytes at an address: what `append` does in a new block (`run.go:281`). -/
def write (mem : Mem) (p : Nat) (bs : List (BitVec 8)) : Mem :=
  fun a => if p ≤ a ∧ a < p + bs.length then bs.getD (a - p) 0 else mem a

/-- `StringMake` (`run.go:276-285`): a slice of $length bytes at $normal; if there are some and the last is not 0 then they
are copied with a 0 after them. The capacity of an `unsafe.Slice` is its length, so that `append` always copies. -/
def stringMake (gap : Nat → Nat) (s : S) : S :=
  let p := s.m.normal.toNat
  let n := s.m.length.toNat
  if 0 < n ∧ (bytes s.mem p n).getLast? ≠ some 0 then
    let q := s.next + gap s.next
    { s with
      m := { s.m with normal := BitVec.ofNat 64 q }
      mem := write s.mem q (bytes s.mem p n ++ [0])
      next := q + n + 1 }
  else s

/-- `StringSize` (`run.go:259-265`): how far the first 0 is, if it is found within so many rounds. -/
def stringSize (mem : Mem) (p : Nat) : Nat → Nat → Option Nat
  | 0, _ => none
  | fuel + 1, i => if mem (p + i) = 0 then some i else stringSize mem p fuel (i + 1)

/-- `StringCopy` (`run.go:266-275`): the bytes before the first 0, if it is found within so many rounds. -/
def stringCopy (mem : Mem) (p : Nat) : Nat → Nat → Option (List (BitVec 8))
  | 0, _ => none
  | fuel + 1, i =>
    if mem (p + i) = 0 then some [] else (stringCopy mem p fuel (i + 1)).map (mem (p + i) :: ·)

/-- One instruction (`run.go:88-440`). -/
def step (w : World) (op : BitVec 8) (s : S) : Option S :=
  if decode op = (.func, 30) then some (stringMake w.gap s)
  else if decode op = (.func, 2) then
    some { s with m := { s.m with reg := w.call s.m.out s.mem, out := w.call s.m.out s.mem } }
  else (exec w.env op s.m).map fun m => { s with m := m }

/-- The loop (`run.go:86-87`). -/
def loop (w : World) (text : List (BitVec 8)) : Nat → S → Option S
  | 0, s => if text.length ≤ s.m.pc then some s else none
  | fuel + 1, s =>
    match text[s.m.pc]? with
    | none => some s
    | some op => (step w op s).bind fun s' => loop w text fuel { s' with m := { s'.m with pc := s'.m.pc + 1 } }

/-- An argument: where Go has it, where C wants it, and whether it is a string for a `&char` (`asm.go:176-194`). -/
structure Arg where
  src : Loc
  dst : Loc
  str : Bool

/-- The arguments of a compiled call (`asm.go:176-194`); none is a panic. -/
def compileArgs : List Arg → Option (List (BitVec 8))
  | [] => some []
  | a :: l => do
    let eq ← a.src.equals a.dst
    let rest ← compileArgs l
    if eq && !a.str then some rest
    else
      let r ← read a.src
      let w ← send a.dst
      some (r ++ (if a.str then [new .func 30] else []) ++ w ++ rest)

/-- The call (`asm.go:216-219`). -/
def compile (l : List Arg) : Option (List (BitVec 8)) := (compileArgs l).map (· ++ [new .func 2])

/-- The machine at the start of a call (`run.go:56-71`). -/
def begin (args : Nat → W) (mem : Mem) (next : Nat) : S := ⟨start args, mem, next⟩

end Verif.Vm.Str
