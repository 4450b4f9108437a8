import Verif.Zgo.SliceModel
/-!
# zgo slices: specification

Slices as the Go language specification has them: a slice is a part of an array; `append` to a full one makes a new
array, whose size is up to the implementation (`more`); new arrays hold zeros. Nothing of the model is used but the
statements, the observations, and the record of a slice.
-/
namespace Verif.Zgo.Slice.Spec
open Verif.Zgo.Slice

variable {V : Type}

/-- A slice: an array, where the slice starts in it, its length and capacity. -/
structure Part where
  arr : Nat
  off : Nat
  len : Nat
  cap : Nat

/-- Arrays by number, and the variables. -/
structure Go (V : Type) where
  cell : Nat → Nat → V
  arrays : Nat
  part : Nat → Part

/-- A new array with this at its start and zeros after, and a slice of it from the start. -/
def Go.new (s : Go V) (zero : V) (x : Nat) (contents : List V) (cap : Nat) : Go V :=
  { cell := fun a i => if a = s.arrays then contents.getD i zero else s.cell a i
    arrays := s.arrays + 1
    part := fun y => if y = x then ⟨s.arrays, 0, contents.length, cap⟩ else s.part y }

/-- What a slice holds. -/
def Go.list (s : Go V) (p : Part) : List V := (List.range p.len).map fun i => s.cell p.arr (p.off + i)

/-- The elements of a slice from `i` on become these. -/
def Go.store (s : Go V) (p : Part) (i : Nat) (vs : List V) : Go V :=
  { s with cell := fun a j =>
      if a = p.arr ∧ p.off + i ≤ j ∧ j < p.off + i + vs.length then (vs[j - (p.off + i)]?).getD (s.cell a j)
      else s.cell a j }

/-- The variable gets the slice. -/
def Go.set (s : Go V) (x : Nat) (p : Part) : Go V := { s with part := fun y => if y = x then p else s.part y }

/-- `append(p, vs...)`. -/
def Go.app (more : Nat → Nat) (zero : V) (s : Go V) (x : Nat) (p : Part) (vs : List V) : Go V :=
  if p.len + vs.length ≤ p.cap then (s.store p p.len vs).set x { p with len := p.len + vs.length }
  else s.new zero x (s.list p ++ vs) (p.len + vs.length + more (p.len + vs.length))

/-- One statement. -/
def step (more : Nat → Nat) (zero : V) (s : Go V) : Op V → Option (Go V) × List (Obs V)
  | .make x len cap => (some (s.new zero x (List.replicate len zero) cap), [])
  | .lit x vs => (some (s.new zero x vs vs.length), [])
  | .append x y v => (some (s.app more zero x (s.part y) [v]), [])
  | .appendAll x y vs => (some (s.app more zero x (s.part y) vs), [])
  | .copy x y =>
    let n := min (s.part x).len (s.part y).len
    (some (s.store (s.part x) 0 ((s.list (s.part y)).take n)), [.num n])
  | .clear x => (some (s.store (s.part x) 0 (List.replicate (s.part x).len zero)), [])
  | .assign x y => (some (s.set x (s.part y)), [])
  | .get x i =>
    if i < 0 ∨ (s.part x).len ≤ i then (none, [.panic])
    else (some s, [.val (s.cell (s.part x).arr ((s.part x).off + i.toNat))])
  | .set x i v =>
    if i < 0 ∨ (s.part x).len ≤ i then (none, [.panic]) else (some (s.store (s.part x) i.toNat [v]), [])
  | .cut x y i j =>
    if i ≤ j ∧ j ≤ (s.part y).cap then
      (some (s.set x ⟨(s.part y).arr, (s.part y).off + i, j - i, (s.part y).cap - i⟩), [])
    else (none, [.panic])
  | .len x => (some s, [.num (s.part x).len])
  | .cap x => (some s, [.num (s.part x).cap])
  | .other => (some s, [])

/-- A program runs until it panics. -/
def run (more : Nat → Nat) (zero : V) : Go V → List (Op V) → List (Obs V)
  | _, [] => []
  | s, op :: ops =>
    match step more zero s op with
    | (none, o) => o
    | (some s', o) => o ++ run more zero s' ops

/-- Before the program: nil slices. -/
def start (zero : V) : Go V := ⟨fun _ _ => zero, 0, fun _ => ⟨0, 0, 0, 0⟩⟩

/-- No slice is ever shared between two variables: appends go back to their variable, nothing is assigned. -/
def Linear : Op V → Prop
  | .append x y _ => x = y
  | .appendAll x y _ => x = y
  | .assign x y => x = y
  | .cut .. => False
  | _ => True

/-- What Go's compiler checks of `make`. -/
def WellFormed : Op V → Prop
  | .make _ len cap => len ≤ cap
  | _ => True

/-- The elements of new memory are not relied on. -/
def NoMake : Op V → Prop
  | .make _ len _ => len = 0
  | _ => True

/-- Along Go's run, no `copy` has a source longer than its destination. -/
def CopiesFit (more : Nat → Nat) (zero : V) : Go V → List (Op V) → Prop
  | _, [] => True
  | s, op :: ops =>
    (match op with
      | .copy x y => (s.part y).len ≤ (s.part x).len
      | _ => True) ∧
    (match step more zero s op with
      | (none, _) => True
      | (some s', _) => CopiesFit more zero s' ops)

end Verif.Zgo.Slice.Spec
