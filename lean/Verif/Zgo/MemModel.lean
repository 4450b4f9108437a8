/-!
# zgo: the memory of goroutines: model

Every function has a `go.routine`, its caller's or, if it was started with `null` as by `go f()`, one of its own on its stack
(`zgo/internal/target/zigc/function.go:49-51`, `:118`, `expressions.go:100`). Everything is allocated from the arena of the routine (`build_runtime.zig:436-456`).
`if (default == null) {defer goto.exit();}` is a block of its own: Zig makes the deferred call at the end of that block, before the
body of the function. `main` never exits (`function.go:49`); a test exits at its end (`function.go:26`). Sending to and receiving from a nil channel exit
and go on (`build_runtime.zig:409`, `:428`).

Threads interleave at will. Objects are numbered as they are allocated. Sizes are left out.
-/
namespace Verif.Zgo.Mem

/-- How a thread began (`function.go:26`, `:49`, `:118`). -/
inductive Kind where
  | main
  | test
  | goroutine
  deriving DecidableEq, Repr

/-- A thread: how it began, its routine, and the calls it is in. -/
structure Thread where
  kind : Kind
  routine : Nat
  depth : Nat
  deriving DecidableEq, Repr

/-- What a program does, step by step; the number is the thread's. -/
inductive Ev where
  /-- a thread begins with a function -/
  | start (k : Kind)
  /-- a call passes the routine on (`function_call.go:147-155`) -/
  | call (t : Nat)
  | ret (t : Nat)
  /-- `go.new`, `goto.malloc`, `make`, `append`, … (`build_runtime.zig:439-456`) -/
  | alloc (t : Nat)
  /-- the object is read or written -/
  | use (t : Nat) (obj : Nat)
  /-- a nil channel is sent to or received from -/
  | nilChan (t : Nat)
  deriving DecidableEq, Repr

/-- The objects: the routine each is from, and whether its memory was given back. -/
structure Obj where
  routine : Nat
  freed : Bool
  deriving DecidableEq, Repr

/-- The program: its threads, routines so far and objects. `fault`: freed memory was used. `stale`: the routines whose arena was given
back with memory in it (`deinit` leaves them pointing to it). -/
structure St where
  threads : List Thread
  routines : Nat
  objs : List Obj
  stale : List Nat
  fault : Bool
  deriving DecidableEq, Repr

/-- The beginning. -/
def init : St := ⟨[], 0, [], [], false⟩

/-- `routine.exit` (`build_runtime.zig:446-448`): all memory of the arena is given back. -/
def exit (s : St) (r : Nat) : St :=
  { s with
    objs := s.objs.map fun o => if o.routine = r then { o with freed := true } else o
    stale := if s.objs.any (fun o => o.routine = r) then r :: s.stale else s.stale }

/-- The beginning of a function that is started (`function.go:26`, `:49`, `:118`): a new routine, and for a goroutine `exit` at once. -/
def begin_ (s : St) (k : Kind) : St :=
  let s' : St := { s with threads := s.threads ++ [⟨k, s.routines, 1⟩], routines := s.routines + 1 }
  match k with
  | .goroutine => exit s' s.routines
  | _ => s'

/-- The return of a function (`function.go:26`): at the end of a test, its memory is given back. -/
def return_ (s : St) (t : Nat) (th : Thread) : St :=
  let s' : St := { s with threads := s.threads.set t { th with depth := th.depth - 1 } }
  if th.depth = 1 ∧ th.kind = .test then exit s' th.routine else s'

/-- One step; a thread that has ended does nothing. -/
def step (s : St) : Ev → St
  | .start k => begin_ s k
  | .call t => match s.threads[t]? with
    | some th => if th.depth = 0 then s else { s with threads := s.threads.set t { th with depth := th.depth + 1 } }
    | none => s
  | .ret t => match s.threads[t]? with
    | some th => if th.depth = 0 then s else return_ s t th
    | none => s
  | .alloc t => match s.threads[t]? with
    | some th => if th.depth = 0 then s else
        { s with objs := s.objs ++ [⟨th.routine, false⟩], fault := s.fault || s.stale.contains th.routine }
    | none => s
  | .use _ obj => match s.objs[obj]? with
    | some o => { s with fault := s.fault || o.freed }
    | none => s
  | .nilChan t => match s.threads[t]? with
    | some th => if th.depth = 0 then s else exit s th.routine
    | none => s

/-- A history. -/
def run (s : St) (h : List Ev) : St := h.foldl step s

end Verif.Zgo.Mem
