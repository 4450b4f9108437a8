import Verif.Qnq.Model
/-!
# A channel with a delivery mechanism: model

`Chan.Send` and `Chan.Listen` (`qnq/qnq.go:77-118`) with a `Channels` that does what its comments say
(`qnq.go:50-62`): what is sent is durably buffered for every subscription that has been received from, what is received
stays until it is acknowledged without an error, and pending messages may be delivered at any time, in any order, any
number of times.

One topic with one listener of this process and its subscription; other processes send to the same topic. What the
listener returns is part of each action, so that the theorems are about all listeners. Listening in this process is
`registered` (the registration itself is modelled in `Model`); it is not cancelled.
-/
namespace Verif.Qnq.Dur
open Verif.Qnq

variable {V : Type}

/-- The state of the process and the mechanism (`qnq.go:68-72`, `:50-62`). -/
structure State (V : Type) where
  /-- `ch.fast.register` was called (`qnq.go:103`). -/
  registered : Bool
  /-- The goroutine of `Listen` has called `Recv` (`qnq.go:105-106`), so that the mechanism has the subscription. -/
  subscribed : Bool
  /-- The messages that are pending for the subscription. -/
  pending : List V
  /-- What the listener was called with. -/
  calls : List V
  /-- What was acknowledged without an error. -/
  acked : List V

/-- Something happens (`qnq.go:77-118`). -/
inductive Act (V : Type) where
  /-- `Listen` is called and returns; its goroutine has not run yet. -/
  | listen
  /-- The goroutine calls `Recv`. -/
  | recv
  /-- `Send` in this process: whether the mechanism fails, and whether the listener does. -/
  | send (v : V) (mechanism listener : Bool)
  /-- Another process sends. -/
  | remote (v : V)
  /-- The mechanism delivers a pending message: whether it can be decoded, and whether the listener fails. -/
  | deliver (i : Nat) (decodes listener : Bool)

/-- The mechanism's `Send` (`qnq.go:53-54`). -/
def buffer (s : State V) (v : V) : State V := if s.subscribed then { s with pending := s.pending ++ [v] } else s

/-- The listeners of this process are called (`qnq.go:83`). -/
def callFast (s : State V) (v : V) : State V := if s.registered then { s with calls := s.calls ++ [v] } else s

/-- What the send in this process returns (`qnq.go:83`). -/
def fastResult (s : State V) (listener : Bool) : Res :=
  if s.registered then (if listener then .err else .nil) else .empty

/-- What the goroutine of `Listen` acknowledges a message with: whether it is an error (`qnq.go:107-113`). -/
def ack (decodes listener : Bool) : Bool := if decodes then listener else true

/-- One step, and what `Send` returns (`qnq.go:77-118`). -/
def step (s : State V) : Act V → State V × Option Res
  | .listen => ({ s with registered := true }, none)
  | .recv => if s.registered then ({ s with subscribed := true }, none) else (s, none)
  | .send v mechanism listener =>
    if mechanism then (s, some (chanSend (some true) .nil))
    else (callFast (buffer s v) v, some (chanSend (some false) (fastResult s listener)))
  | .remote v => (buffer s v, none)
  | .deliver i decodes listener =>
    if s.subscribed then
      match s.pending[i]? with
      | none => (s, none)
      | some v =>
        let s := if decodes then { s with calls := s.calls ++ [v] } else s
        if ack decodes listener then (s, none)
        else ({ s with pending := s.pending.eraseIdx i, acked := s.acked ++ [v] }, none)
    else (s, none)

/-- Any number of steps (`qnq.go:77-118`). -/
def run (s : State V) (as : List (Act V)) : State V := as.foldl (fun s a => (step s a).1) s

/-- Before anything happened (`qnq.go:120-123`). -/
def init : State V := ⟨false, false, [], [], []⟩

end Verif.Qnq.Dur
