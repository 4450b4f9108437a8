import Verif.Zgo.RangeModel
/-!
# zgo slicing of arrays: specification

The Go language specification on slice expressions of pointers to arrays: a bound that is left out is 0, the length of the
array, and the length of the array; `0 <= low <= high <= max <= len` or a panic; the slice shares the array; its capacity is
`max - low`. Only the statements and what is printed are the model's.
-/
namespace Verif.Zgo.Range.Spec
open Verif.Zgo.Range (Op Obs)

variable {V : Type}

/-- A slice: an array (a variable, or one that `append` made), the index of its first element, length and capacity. -/
structure Part where
  arr : Nat ⊕ Nat
  off : Nat
  len : Nat
  cap : Nat
  deriving DecidableEq, Repr

structure Go (V : Type) where
  cell : Nat ⊕ Nat → Nat → V
  ptr : Nat → Option Nat
  part : Nat → Part
  made : Nat

/-- The slice that `p[low:high:max]` is. -/
def sliceOf (size : Nat) (p : Option Nat) (low high max : Option Int) : Option Part :=
  match p with
  | none => none
  | some a =>
    let l := low.getD 0
    let h := high.getD size
    let m := max.getD size
    if 0 ≤ l ∧ l ≤ h ∧ h ≤ m ∧ m ≤ size then some ⟨.inl a, l.toNat, (h - l).toNat, (m - l).toNat⟩ else none

/-- Elements `0 … n` of the part become those that `f` gives. -/
def Go.store (g : Go V) (p : Part) (n : Nat) (f : Nat → V) : Go V :=
  { g with cell := fun a j => if a = p.arr ∧ p.off ≤ j ∧ j < p.off + n then f (j - p.off) else g.cell a j }

def Go.set (g : Go V) (s : Nat) (p : Part) : Go V := { g with part := fun t => if t = s then p else g.part t }

def step (size : Nat → Nat) (more : Nat → Nat) (zero : V) (g : Go V) : Op V → Option (Go V) × List (Obs V)
  | .point p a => (some { g with ptr := fun q => if q = p then some a else g.ptr q }, [])
  | .setArr a i v => (some { g with cell := fun b j => if b = .inl a ∧ j = i then v else g.cell b j }, [])
  | .getArr a i => (some g, [.val (g.cell (.inl a) i)])
  | .slice s p low high max =>
    match sliceOf (size p) (g.ptr p) low high max with
    | none => (none, [.panic])
    | some q => (some (g.set s q), [])
  | .assign s t => (some (g.set s (g.part t)), [])
  | .get s i =>
    if 0 ≤ i ∧ i < (g.part s).len then (some g, [.val (g.cell (g.part s).arr ((g.part s).off + i.toNat))])
    else (none, [.panic])
  | .len s => (some g, [.num (g.part s).len])
  | .copy s t =>
    (some (g.store (g.part s) (min (g.part s).len (g.part t).len) fun k => g.cell (g.part t).arr ((g.part t).off + k)),
      [.num (min (g.part s).len (g.part t).len)])
  | .clear s => (some (g.store (g.part s) (g.part s).len fun _ => zero), [])
  | .append s t v =>
    if (g.part t).len < (g.part t).cap then
      (some ((g.store { g.part t with off := (g.part t).off + (g.part t).len } 1 fun _ => v).set s
        { g.part t with len := (g.part t).len + 1 }), [])
    else
      (some ({ g with
          cell := fun a j => if a = .inr g.made then
              (if j < (g.part t).len then g.cell (g.part t).arr ((g.part t).off + j) else if j = (g.part t).len then v else zero)
            else g.cell a j
          made := g.made + 1 : Go V }.set s ⟨.inr g.made, 0, (g.part t).len + 1, (g.part t).len + 1 + more (g.part t).len⟩), [])

/-- A program runs until it panics. -/
def run (size : Nat → Nat) (more : Nat → Nat) (zero : V) : Go V → List (Op V) → List (Obs V)
  | _, [] => []
  | g, op :: ops =>
    match step size more zero g op with
    | (none, o) => o
    | (some g', o) => o ++ run size more zero g' ops

/-- Before the program: arrays of zeros, nil pointers, nil slices. -/
def start (zero : V) : Go V := ⟨fun _ _ => zero, fun _ => none, fun _ => ⟨.inl 0, 0, 0, 0⟩, 0⟩

/-- Every slice expression has an upper bound and no capacity, and nothing is appended. -/
def Bounded : Op V → Prop
  | .slice _ _ _ high max => high.isSome = true ∧ max = none
  | .append .. => False
  | _ => True

/-- Along Go's run, no `copy` has a source that is longer than its destination, or a destination that starts inside the
source, behind its first element. -/
def CopiesGood (size : Nat → Nat) (more : Nat → Nat) (zero : V) : Go V → List (Op V) → Prop
  | _, [] => True
  | g, op :: ops =>
    (match op with
      | .copy s t => (g.part t).len ≤ (g.part s).len ∧
          ¬ ((g.part s).arr = (g.part t).arr ∧ (g.part t).off < (g.part s).off ∧
            (g.part s).off < (g.part t).off + (g.part t).len)
      | _ => True) ∧
    (match step size more zero g op with
      | (none, _) => True
      | (some g', _) => CopiesGood size more zero g' ops)

end Verif.Zgo.Range.Spec
