/-!
# zgo channels: model

`chan(T)` of `zgo/internal/target/zigc/build_runtime.zig:371-433`. The mutex makes each stretch between
taking and releasing it (or waiting on a condition, which releases it) one step. `std.RingBuffer` is a queue
of bytes; every write and read is of one element, so it is a queue of elements here (`@sizeOf(T) > 0`).
`bad` is never set (there is no `close`), and nil channels are left out.
-/
namespace Verif.Zgo.Chan

/-- A call a goroutine makes (`build_runtime.zig:393`, `:414`). -/
inductive Call
  | send (v : Nat)
  | recv
  deriving DecidableEq, Repr

/-- Where a goroutine stands in its first call: not begun; waiting on its condition; told to go on, and about
to take the mutex again (`build_runtime.zig:393-431`). -/
inductive Status
  | ready
  | waiting
  | woken
  deriving DecidableEq, Repr

/-- A goroutine: the calls it still makes (`build_runtime.zig:393`, `:414`). -/
structure Thread where
  status : Status
  calls : List Call
  deriving DecidableEq, Repr

/-- `build_runtime.zig:373-378` (`ring`): the buffer and whose condition `sig` is; and the goroutines. -/
structure State where
  cap : Nat
  buf : List Nat
  sig : Option Nat
  threads : List Thread
  panicked : Bool
  deriving DecidableEq, Repr

/-- What can be seen: a call that returned (`build_runtime.zig:413`, `:430-431`). -/
inductive Event
  | sent (i : Nat) (v : Nat)
  | got (i : Nat) (v : Nat)
  deriving DecidableEq, Repr

/-- `build_runtime.zig:382-392` (`make`): room for one element more than the capacity. Every goroutine is
about to begin. -/
def make (cap : Nat) (programs : List (List Call)) : State :=
  { cap := cap, buf := [], sig := none, threads := programs.map (fun p => ⟨.ready, p⟩), panicked := false }

/-- `buf.isFull()` (`build_runtime.zig:399`). -/
def State.full (s : State) : Bool := s.buf.length == s.cap + 1

/-- `s.signal()` (`:405-407`): the goroutine whose condition it is goes on if it waits. -/
def wake (ts : List Thread) : Option Nat → List Thread
  | none => ts
  | some j =>
    match ts[j]? with
    | some t => if t.status = .waiting then ts.set j { t with status := .woken } else ts
    | none => ts

/-- Wait on the goroutine's own condition (`:400-401`, `:421-422`). -/
def wait (s : State) (i : Nat) (t : Thread) : State :=
  { s with sig := some i, threads := s.threads.set i { t with status := .waiting } }

/-- The call returned (`build_runtime.zig:413`, `:431`). -/
def finish (ts : List Thread) (i : Nat) (rest : List Call) : List Thread := ts.set i ⟨.ready, rest⟩

/-- `:402`, `:423`: after waiting, `sig` is cleared. -/
def clearSig (sig : Option Nat) (st : Status) : Option Nat := if st = .woken then none else sig

/-- `send` (`:393-413`) from the lock, or from the return of `wait`, to the unlock or the next `wait`. -/
def sendStep (s : State) (i : Nat) (t : Thread) (v : Nat) (rest : List Call) : State × List Event :=
  let s := { s with sig := clearSig s.sig t.status }
  if s.full then (wait s i t, [])
  else ({ s with buf := s.buf ++ [v], threads := wake (finish s.threads i rest) s.sig }, [.sent i v])

/-- `recv` (`:414-431`): the test for an empty buffer is made once. Reading from an empty buffer panics
(`:426`). -/
def recvStep (s : State) (i : Nat) (t : Thread) (rest : List Call) : State × List Event :=
  let s := { s with sig := clearSig s.sig t.status }
  match s.buf with
  | [] => if t.status = .woken then ({ s with panicked := true }, []) else (wait s i t, [])
  | v :: buf => ({ s with buf := buf, threads := finish s.threads i rest }, [.got i v])

/-- What a scheduler may do: let a goroutine run, or wake one that nobody signalled (which
`std.Thread.Condition` allows; `build_runtime.zig:401`, `:422`). -/
inductive Act
  | run (i : Nat)
  | spurious (i : Nat)
  deriving DecidableEq, Repr

/-- One step of `send` or `recv` (`build_runtime.zig:393-431`); `none` if it is not possible. -/
def step (s : State) : Act → Option (State × List Event)
  | .run i =>
    if s.panicked then none
    else
      match s.threads[i]? with
      | none => none
      | some t =>
        if t.status = .waiting then none
        else
          match t.calls with
          | [] => none
          | .send v :: rest => some (sendStep s i t v rest)
          | .recv :: rest => some (recvStep s i t rest)
  | .spurious i =>
    if s.panicked then none
    else
      match s.threads[i]? with
      | none => none
      | some t =>
        if t.status = .waiting then
          some ({ s with threads := s.threads.set i { t with status := .woken } }, [])
        else none

/-- A schedule: the state it ends in and what was seen, in order (`build_runtime.zig:393-431`). -/
def exec (s : State) : List Act → Option (State × List Event)
  | [] => some (s, [])
  | a :: as =>
    match step s a with
    | none => none
    | some (s', es) =>
      match exec s' as with
      | none => none
      | some (s'', es') => some (s'', es ++ es')

end Verif.Zgo.Chan
