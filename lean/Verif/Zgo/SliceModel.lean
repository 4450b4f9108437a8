/-!
# zgo slices: model

The slices of the Zig runtime (`zgo/internal/target/zigc/build_runtime.zig`: `slice`, `append`, `copy`) and what the
compiler makes of Go's operations on slices (`builtins.go`, `composite.go`, `expressions.go`, `assignment.go`).
`std.ArrayListUnmanaged` and `std.heap.ArenaAllocator` are modelled from Zig's library: memory comes in blocks, a
block can grow where it is if it is the arena's last and there is room. The elements are of any type with a zero.
-/
namespace Verif.Zgo.Slice

/-- A Go statement about slices, variables being numbers. `other` stands for anything else that allocates. -/
inductive Op (V : Type)
  /-- `x = make([]T, len, cap)` -/
  | make (x len cap : Nat)
  /-- `x = []T{…}` -/
  | lit (x : Nat) (vs : List V)
  /-- `x = append(y, v)` -/
  | append (x y : Nat) (v : V)
  /-- `println(copy(x, y))` -/
  | copy (x y : Nat)
  /-- `clear(x)` -/
  | clear (x : Nat)
  /-- `x = y` -/
  | assign (x y : Nat)
  /-- `println(x[i])` -/
  | get (x : Nat) (i : Int)
  /-- `println(len(x))` -/
  | len (x : Nat)
  /-- Anything else that allocates memory. -/
  | other
  /-- `x[i] = v` -/
  | set (x : Nat) (i : Int) (v : V)
  /-- `x = y[i:j]` -/
  | cut (x y i j : Nat)
  /-- `println(cap(x))` -/
  | cap (x : Nat)
  /-- `x = append(y, …)` with other than one element. -/
  | appendAll (x y : Nat) (vs : List V)
  deriving Repr

/-- Whether the statement becomes Zig that compiles. `x[i] = v` is written `x.index(i) = v` (`expressions.go:113-121`,
`assignment.go:103-131`), an assignment to a call; `range` calls a function `ArrayListUnmanaged` does not have
(`build_runtime.zig:186-193`); slices have no `cap` (`builtins.go:166-175`); `append` takes exactly one element
(`builtins.go:112-126`); `copy`, `clear`, `len` and indices compile (`builtins.go:128-164`, `expressions.go:113-121`). -/
def compiles {V : Type} : Op V → Bool
  | .set .. | .cut .. | .cap .. => false
  | .appendAll _ _ vs => vs.length == 1
  | _ => true

/-- `std.ArrayListUnmanaged(T)` in a `slice(T)` (`build_runtime.zig:155-158`): where its block is, `items.len` and
`capacity`. -/
structure Slice where
  blk : Nat
  len : Nat
  cap : Nat
  deriving DecidableEq, Repr

/-- What is printed; a panic ends the program. -/
inductive Obs (V : Type)
  | val (v : V)
  | num (n : Nat)
  | panic
  deriving DecidableEq, Repr

/-- What the program runs with: what memory holds before it is written, how lists grow (`growCapacity`), and whether
the arena has room behind its last block. -/
structure World (V : Type) where
  fresh : Nat → Nat → V
  grow : Nat → Nat → Nat
  room : Nat → Bool

/-- The state: memory by block and index, the next block, the block at the end of the arena with its size
(`build_runtime.zig:437`), and the variables. -/
structure St (V : Type) where
  mem : Nat → Nat → V
  next : Nat
  last : Option (Nat × Nat)
  vars : Nat → Slice

variable {V : Type}

/-- A variable is given a slice. -/
def St.put (s : St V) (x : Nat) (v : Slice) : St V := { s with vars := fun y => if y = x then v else s.vars y }

/-- A cell is written. -/
def St.write (s : St V) (b i : Nat) (v : V) : St V :=
  { s with mem := fun b' i' => if b' = b ∧ i' = i then v else s.mem b' i' }

/-- The allocator gives a block of some size, with what was there before; nothing is allocated for size 0
(`ensureTotalCapacityPrecise`). -/
def St.alloc (w : World V) (s : St V) (size : Nat) : St V × Nat :=
  if size = 0 then (s, s.next)
  else ({ s with mem := fun b i => if b = s.next then w.fresh b i else s.mem b i,
                 next := s.next + 1, last := some (s.next, size) }, s.next)

/-- The loop of `literal` (`build_runtime.zig:169-171`): the elements are appended within the capacity. -/
def St.fill (s : St V) (b : Nat) : Nat → List V → St V
  | _, [] => s
  | i, v :: vs => (s.write b i v).fill b (i + 1) vs

/-- `std.mem.copyForwards` and the copy when a list moves: cells `0..n` of one block to another, first to last. -/
def St.blit (s : St V) (dst src : Nat) : Nat → St V
  | 0 => s
  | n + 1 => let s' := s.blit dst src n; s'.write dst n (s'.mem src n)

/-- `slice.clear` (`build_runtime.zig:183-185`): `@memset` of the items. -/
def St.wipe (s : St V) (zero : V) (b : Nat) : Nat → St V
  | 0 => s
  | n + 1 => (s.wipe zero b n).write b n zero

/-- `go.append` (`build_runtime.zig:457-461`): `ArrayListUnmanaged.append` on a copy of the header. A full list grows
where it is if the arena can (`remap`, `resize`), or moves. -/
def St.append (w : World V) (s : St V) (x : Nat) (a : Slice) (v : V) : St V :=
  if a.len < a.cap then (s.write a.blk a.len v).put x ⟨a.blk, a.len + 1, a.cap⟩
  else
    let cap := w.grow a.cap (a.len + 1)
    if 0 < a.cap ∧ s.last = some (a.blk, a.cap) ∧ w.room a.blk = true then
      (({ s with last := some (a.blk, cap) } : St V).write a.blk a.len v).put x ⟨a.blk, a.len + 1, cap⟩
    else
      let r := s.alloc w cap
      ((r.1.blit r.2 a.blk a.len).write r.2 a.len v).put x ⟨r.2, a.len + 1, cap⟩

/-- One statement, and what it prints; `none` after a panic (`build_runtime.zig:160-194`, `:457-466`; the compiler's
part is `builtins.go:54-79`, `:112-164`, `composite.go:31-43`, `expressions.go:113-121`). Statements that do not
compile do nothing here. -/
def step (w : World V) (zero : V) (s : St V) : Op V → Option (St V) × List (Obs V)
  | .make x len cap => let r := s.alloc w cap; (some (r.1.put x ⟨r.2, len, cap⟩), [])
  | .lit x vs => let r := s.alloc w vs.length; (some ((r.1.fill r.2 0 vs).put x ⟨r.2, vs.length, vs.length⟩), [])
  | .append x y v => (some (s.append w x (s.vars y) v), [])
  | .copy x y =>
    if (s.vars x).len < (s.vars y).len then (none, [.panic])
    else (some (s.blit (s.vars x).blk (s.vars y).blk (s.vars y).len), [.num (min (s.vars x).len (s.vars y).len)])
  | .clear x => (some (s.wipe zero (s.vars x).blk (s.vars x).len), [])
  | .assign x y => (some (s.put x (s.vars y)), [])
  | .get x i =>
    if i < 0 ∨ (s.vars x).len ≤ i then (none, [.panic]) else (some s, [.val (s.mem (s.vars x).blk i.toNat)])
  | .len x => (some s, [.num (s.vars x).len])
  | .other => (some (s.alloc w 1).1, [])
  | .appendAll x y [v] => (some (s.append w x (s.vars y) v), [])
  | .set .. | .cut .. | .cap .. | .appendAll .. => (some s, [])

/-- A program runs until it panics. -/
def run (w : World V) (zero : V) : St V → List (Op V) → List (Obs V)
  | _, [] => []
  | s, op :: ops =>
    match step w zero s op with
    | (none, o) => o
    | (some s', o) => o ++ run w zero s' ops

/-- Before the program: no memory, every variable `slice(T){.arraylist = .{}}` (`go.zero`, `build_runtime.zig:63-65`). -/
def start (zero : V) : St V := ⟨fun _ _ => zero, 0, none, fun _ => ⟨0, 0, 0⟩⟩

end Verif.Zgo.Slice
