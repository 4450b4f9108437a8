/-!
# zgo slicing of arrays: model

`p[low:high:max]` of a pointer to an array (`zgo/internal/target/zigc/expressions.go:170-194`,
`zgo/internal/target/zigc/build_runtime.zig:221-234`) and what can be done with the slice in a compiled program. Slices of
slices, strings and arrays do not compile (see C185), so that this is the only way to get a part of something.
The bounds are given as the values they evaluate to. Zig's allocator is simplified: a list that has no room moves to a
new block; C185 has the case of a list that grows where it is.
-/
namespace Verif.Zgo.Range

/-- A Go statement; array variables, pointer variables and slice variables are numbers of three kinds. -/
inductive Op (V : Type)
  /-- `p = &a` -/
  | point (p a : Nat)
  /-- `a[i] = v`, the index being a constant -/
  | setArr (a i : Nat) (v : V)
  /-- `println(a[i])` -/
  | getArr (a i : Nat)
  /-- `s = p[low:high:max]`, any of them left out -/
  | slice (s p : Nat) (low high max : Option Int)
  /-- `s = t` -/
  | assign (s t : Nat)
  /-- `println(s[i])` -/
  | get (s : Nat) (i : Int)
  /-- `println(len(s))` -/
  | len (s : Nat)
  /-- `println(copy(s, t))` -/
  | copy (s t : Nat)
  /-- `clear(s)` -/
  | clear (s : Nat)
  /-- `s = append(t, v)` -/
  | append (s t : Nat) (v : V)
  deriving Repr

/-- What is printed; a panic ends the program. -/
inductive Obs (V : Type)
  | val (v : V)
  | num (n : Nat)
  | panic
  deriving DecidableEq, Repr

/-- `std.ArrayListUnmanaged(T)` (`build_runtime.zig:155-158`): the block that `items` points into and where, `items.len`,
`capacity`. Blocks are array variables (`inl`) and what the arena gave (`inr`). -/
structure List' where
  blk : Nat ⊕ Nat
  off : Nat
  len : Nat
  cap : Nat
  deriving DecidableEq, Repr

/-- The program at run time: memory, pointers (`address`, `build_runtime.zig:198-199`), slices, and the next block. -/
structure St (V : Type) where
  mem : Nat ⊕ Nat → Nat → V
  ptr : Nat → Option Nat
  lst : Nat → List'
  next : Nat

variable {V : Type}

/-- A cell is written (Zig's `items[i] = v`, `build_runtime.zig:464`). -/
def write (mem : Nat ⊕ Nat → Nat → V) (b : Nat ⊕ Nat) (i : Nat) (v : V) : Nat ⊕ Nat → Nat → V :=
  fun b' i' => if b' = b ∧ i' = i then v else mem b' i'

/-- `std.mem.copyForwards` (`build_runtime.zig:464`): one element after the other, from the first. -/
def forwards (mem : Nat ⊕ Nat → Nat → V) (d s : Nat ⊕ Nat) (doff soff : Nat) : Nat → Nat ⊕ Nat → Nat → V
  | 0 => mem
  | n + 1 => write (forwards mem d s doff soff n) d (doff + n) (forwards mem d s doff soff n s (soff + n))

/-- `@memset(items, zero(T))` (`build_runtime.zig:183-185`). -/
def wipe (mem : Nat ⊕ Nat → Nat → V) (zero : V) (b : Nat ⊕ Nat) (off : Nat) : Nat → Nat ⊕ Nat → Nat → V
  | 0 => mem
  | n + 1 => write (wipe mem zero b off n) b (off + n) zero

/-- A slice variable is assigned (`assignment.go:103-131`). -/
def St.put (z : St V) (s : Nat) (l : List') : St V := { z with lst := fun t => if t = s then l else z.lst t }

/-- The arguments of `.range(…)` that are written for the expression: `0` for a bound that is left out, and nothing for
the capacity (`expressions.go:174-193`). -/
def rangeArgs (low high _max : Option Int) : Int × Int := (low.getD 0, high.getD 0)

/-- `pointer(T).range` (`build_runtime.zig:221-234`) for arrays of `size` elements: `none` is a panic. The `items` are a part of
the array, the capacity is that of an empty list. -/
def range (size : Nat) (address : Option Nat) (pos end' : Int) : Option List' :=
  if pos < 0 ∨ pos > end' ∨ end' > size then none
  else
    match address with
    | none => none
    | some a => some ⟨.inl a, pos.toNat, (end' - pos).toNat, 0⟩

/-- One statement and what it prints; `none` after a panic. `size` is the length in the type of a pointer variable, `grow`
is `growCapacity` (`build_runtime.zig:176-185`, `:221-234`, `:457-466`; `builtins.go:112-175`; `expressions.go:113-140`). -/
def step (size : Nat → Nat) (grow : Nat → Nat) (zero : V) (z : St V) : Op V → Option (St V) × List (Obs V)
  | .point p a => (some { z with ptr := fun q => if q = p then some a else z.ptr q }, [])
  | .setArr a i v => (some { z with mem := write z.mem (.inl a) i v }, [])
  | .getArr a i => (some z, [.val (z.mem (.inl a) i)])
  | .slice s p low high max =>
    match range (size p) (z.ptr p) (rangeArgs low high max).1 (rangeArgs low high max).2 with
    | none => (none, [.panic])
    | some l => (some (z.put s l), [])
  | .assign s t => (some (z.put s (z.lst t)), [])
  | .get s i =>
    if i < 0 ∨ i ≥ (z.lst s).len then (none, [.panic])
    else (some z, [.val (z.mem (z.lst s).blk ((z.lst s).off + i.toNat))])
  | .len s => (some z, [.num (z.lst s).len])
  | .copy s t =>
    if (z.lst s).len < (z.lst t).len then (none, [.panic])
    else
      (some { z with mem := forwards z.mem (z.lst s).blk (z.lst t).blk (z.lst s).off (z.lst t).off (z.lst t).len },
        [.num (min (z.lst s).len (z.lst t).len)])
  | .clear s => (some { z with mem := wipe z.mem zero (z.lst s).blk (z.lst s).off (z.lst s).len }, [])
  | .append s t v =>
    if (z.lst t).len < (z.lst t).cap then
      (some ({ z with mem := write z.mem (z.lst t).blk ((z.lst t).off + (z.lst t).len) v }.put s
        { z.lst t with len := (z.lst t).len + 1 }), [])
    else
      (some ({ z with
          mem := write (forwards z.mem (.inr z.next) (z.lst t).blk 0 (z.lst t).off (z.lst t).len) (.inr z.next) (z.lst t).len v
          next := z.next + 1 }.put s ⟨.inr z.next, 0, (z.lst t).len + 1, grow ((z.lst t).len + 1)⟩), [])

/-- A program runs until it panics. -/
def run (size : Nat → Nat) (grow : Nat → Nat) (zero : V) : St V → List (Op V) → List (Obs V)
  | _, [] => []
  | z, op :: ops =>
    match step size grow zero z op with
    | (none, o) => o
    | (some z', o) => o ++ run size grow zero z' ops

/-- Before the program (`go.zero`, `build_runtime.zig:63-65`): arrays of zeros, nil pointers, empty lists. -/
def start (zero : V) : St V := ⟨fun _ _ => zero, fun _ => none, fun _ => ⟨.inl 0, 0, 0, 0⟩, 0⟩

end Verif.Zgo.Range
