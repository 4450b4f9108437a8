/-
Model of qnq/qnq.go: the lock-free list of listeners behind `Chan`. Every atomic load, store and compare-and-swap, every
handler call and every look at a context is one step; any number of registrations and sends interleave.

Simplifications, stated once:
* `pipe` is never set in the package and is left out.
* A freshly allocated node gets its index when it is linked; before that it is private to its thread.
* A context is a number, 0 being `context.Background()`, which cannot be cancelled. A listener is named after the thread
  that registers it.
-/
namespace Verif.Qnq

/-- `channel`, qnq/qnq.go:147-163, without the fields never used. -/
structure Node where
  next : Option Nat
  read : Bool
  ctx : Option Nat
  handler : Option Nat
  deriving DecidableEq, Repr

/-- `new(channel)` (`qnq/qnq.go:177`). -/
def zero : Node := ⟨none, false, none, none⟩

/-- Where a registration is, qnq/qnq.go:167-216. -/
inductive RPc where
  | tryHead                       -- line 186, only for the background context
  | walk (n : Nat)                -- line 197
  | cas (n : Nat)                 -- line 199
  | chkRead (n nx : Nat)          -- line 208, `next.read.Load()`
  | chkCtx (n nx : Nat)           -- line 208, `next.context.Err()`
  | chkNext (n nx : Nat)          -- line 209
  | del (n nx nn : Nat)           -- line 210
  | setCtx (n : Nat)              -- lines 187 and 200
  | setHandler (n : Nat)          -- lines 188 and 201
  | setRead (n : Nat)             -- lines 189 and 202
  | done (n : Nat)                -- lines 190 and 203
  deriving DecidableEq, Repr

/-- What `send` returns (`qnq/qnq.go:220`, `:230-232`, `:237`). -/
inductive Res where
  | nil | empty | err
  deriving DecidableEq, Repr

/-- Where a send is, qnq/qnq.go:218-253. -/
inductive SPc where
  | enter (n : Option Nat)              -- lines 228-234
  | chkRead (n : Nat) (nx : Option Nat) -- line 235
  | call (n : Nat) (nx : Option Nat)    -- line 236
  | nRead (n nx : Nat)                  -- line 242, `next.read.Load()`
  | nCtx (n nx : Nat)                   -- line 242, `next.context.Err()`
  | nNext (n nx : Nat)                  -- line 243
  | del (n nx nn : Nat)                 -- line 244
  | done (r : Res)
  | crashed                             -- nil handler or context
  deriving DecidableEq, Repr

/-- A goroutine in `register` with its context, or in `send` with its variable `sent` (`qnq/qnq.go:167-253`). -/
inductive Thread where
  | reg (ctx : Nat) (pc : RPc)
  | send (sent : Bool) (pc : SPc)
  deriving DecidableEq, Repr

/-- What can be observed: thread `t` (a send) called the listener registered by thread `r`, which returned no error
(`ok`) or an error (`qnq/qnq.go:236`). -/
structure Call where
  t : Nat
  r : Nat
  ok : Bool
  deriving DecidableEq, Repr

/-- The shared memory, the goroutines, the cancelled contexts and the calls so far (newest first)
(`qnq/qnq.go:147-253`). -/
structure St where
  nodes : List Node
  threads : List Thread
  cancelled : List Nat
  log : List Call
  deriving DecidableEq, Repr

/-- The zero `Chan` (`qnq/qnq.go:147-163`). -/
def init : St := ⟨[zero], [], [], []⟩

/-- What can happen next: a context is cancelled, a goroutine calls `register` or `send`, or goroutine `t` takes one
step (`ok` is what the handler returns if the step is a handler call) (`qnq/qnq.go:167-253`). -/
inductive Act where
  | cancel (c : Nat)
  | register (c : Nat)
  | send
  | run (t : Nat) (ok : Bool)
  deriving DecidableEq, Repr

/-- Change one node (the stores at `qnq/qnq.go:185-187`, `:198-200`). -/
def upd (ns : List Node) (i : Nat) (f : Node → Node) : List Node := ns.modify i f

/-- The `next` of a node (`qnq/qnq.go:195`, `:207`, `:234`, `:243`). -/
def nextOf (s : St) (i : Nat) : Option Nat := (s.nodes[i]?).bind Node.next

/-- `read.Load()` (`qnq/qnq.go:206`, `:235`, `:242`). -/
def readOf (s : St) (i : Nat) : Bool := ((s.nodes[i]?).map Node.read).getD false

/-- The context of a node (`qnq/qnq.go:206`, `:242`). -/
def ctxOf (s : St) (i : Nat) : Option Nat := (s.nodes[i]?).bind Node.ctx

/-- The listener of a node (`qnq/qnq.go:236`). -/
def handlerOf (s : St) (i : Nat) : Option Nat := (s.nodes[i]?).bind Node.handler

/-- Set the program counter of a thread (control flow of `qnq/qnq.go:167-253`). -/
def St.goto (s : St) (t : Nat) (th : Thread) : St := { s with threads := s.threads.set t th }

/-- Link a new node behind `i` (a compare-and-swap from nil that succeeded) (`qnq/qnq.go:184`, `:197`). -/
def St.attach (s : St) (i : Nat) : St :=
  { s with nodes := upd s.nodes i (fun n => { n with next := some s.nodes.length }) ++ [zero] }

/-- Store into a node (`qnq/qnq.go:185-187`, `:198-200`). -/
def St.store (s : St) (i : Nat) (f : Node → Node) : St := { s with nodes := upd s.nodes i f }

/-- One step of a registration, qnq/qnq.go:167-216. -/
def stepReg (s : St) (t c : Nat) : RPc → St
  | .tryHead =>
    if nextOf s 0 = none then (s.attach 0).goto t (.reg c (.setCtx 0)) else s.goto t (.reg c (.walk 0))
  | .walk n =>
    match nextOf s n with
    | none => s.goto t (.reg c (.cas n))
    | some nx => s.goto t (.reg c (.chkRead n nx))
  | .cas n =>
    if nextOf s n = none then (s.attach n).goto t (.reg c (.setCtx n)) else s.goto t (.reg c (.walk n))
  | .chkRead n nx => if readOf s nx then s.goto t (.reg c (.chkCtx n nx)) else s.goto t (.reg c (.walk nx))
  | .chkCtx n nx =>
    match ctxOf s nx with
    | some x => if x ∈ s.cancelled then s.goto t (.reg c (.chkNext n nx)) else s.goto t (.reg c (.walk nx))
    | none => s.goto t (.send false .crashed)
  | .chkNext n nx =>
    match nextOf s nx with
    | some nn => s.goto t (.reg c (.del n nx nn))
    | none => s.goto t (.reg c (.walk nx))
  | .del n nx nn =>
    if nextOf s n = some nx then (s.store n fun x => { x with next := some nn }).goto t (.reg c (.walk nn))
    else s.goto t (.reg c (.walk nx))
  | .setCtx n => (s.store n fun x => { x with ctx := some c }).goto t (.reg c (.setHandler n))
  | .setHandler n => (s.store n fun x => { x with handler := some t }).goto t (.reg c (.setRead n))
  | .setRead n => (s.store n fun x => { x with read := true }).goto t (.reg c (.done n))
  | .done _ => s

/-- After a successful call: the clean-up of the next node if there is one, qnq/qnq.go:239-250. -/
def afterCall (n : Nat) : Option Nat → SPc
  | some nx => .nRead n nx
  | none => .enter none

/-- One step of a send, qnq/qnq.go:218-253. -/
def stepSend (s : St) (t : Nat) (sent ok : Bool) : SPc → St
  | .enter none => s.goto t (.send sent (.done (if sent then .nil else .empty)))
  | .enter (some n) => s.goto t (.send sent (.chkRead n (nextOf s n)))
  | .chkRead n nx => if readOf s n then s.goto t (.send sent (.call n nx)) else s.goto t (.send sent (.enter nx))
  | .call n nx =>
    match handlerOf s n with
    | none => s.goto t (.send sent .crashed)
    | some r =>
      if ok then { (s.goto t (.send true (afterCall n nx))) with log := ⟨t, r, true⟩ :: s.log }
      else { (s.goto t (.send sent (.done .err))) with log := ⟨t, r, false⟩ :: s.log }
  | .nRead n nx => if readOf s nx then s.goto t (.send sent (.nCtx n nx)) else s.goto t (.send sent (.enter (some nx)))
  | .nCtx n nx =>
    match ctxOf s nx with
    | some x => if x ∈ s.cancelled then s.goto t (.send sent (.nNext n nx)) else s.goto t (.send sent (.enter (some nx)))
    | none => s.goto t (.send sent .crashed)
  | .nNext n nx =>
    match nextOf s nx with
    | some nn => s.goto t (.send sent (.del n nx nn))
    | none => s.goto t (.send sent (.enter (some nx)))
  | .del n nx nn =>
    if nextOf s n = some nx then (s.store n fun x => { x with next := some nn }).goto t (.send sent (.enter (some nn)))
    else s.goto t (.send sent (.enter (some nx)))
  | .done _ => s
  | .crashed => s

/-- One step of the system. A registration with the background context first tries the head (lines 183-192); any other
starts walking at the head (line 195). A send starts at the head (lines 225-226) (`qnq/qnq.go:167-253`). -/
def step (s : St) : Act → St
  | .cancel c => if c = 0 then s else { s with cancelled := c :: s.cancelled }
  | .register c => { s with threads := s.threads ++ [.reg c (if c = 0 then .tryHead else .walk 0)] }
  | .send => { s with threads := s.threads ++ [.send false (.enter (some 0))] }
  | .run t ok =>
    match s.threads[t]? with
    | some (.reg c pc) => stepReg s t c pc
    | some (.send sent pc) => stepSend s t sent ok pc
    | none => s

/-- Any number of steps (`qnq/qnq.go:167-253`). -/
def run (s : St) (as : List Act) : St := as.foldl step s

/-- `Chan.Send`, qnq/qnq.go:77-87, from what the delivery mechanism returned (`none` when there is none, else whether it
failed) and what the in-process send returned. -/
def chanSend (impl : Option Bool) (fast : Res) : Res :=
  match impl with
  | some true => .err
  | some false => if fast = .err then .err else .nil
  | none => fast

end Verif.Qnq
