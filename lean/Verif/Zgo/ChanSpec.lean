import Verif.Zgo.ChanModel

/-!
# zgo channels: specification

In terms of the calls that returned, and in which order.
-/
namespace Verif.Zgo.Chan.Spec
open Verif.Zgo.Chan

/-- The values sent, in order. -/
def sentValues : List Event → List Nat
  | [] => []
  | .sent _ v :: es => v :: sentValues es
  | .got _ _ :: es => sentValues es

/-- The values received, in order. -/
def gotValues : List Event → List Nat
  | [] => []
  | .sent _ _ :: es => gotValues es
  | .got _ v :: es => v :: gotValues es

/-- The calls of goroutine `i` that returned, in order. -/
def callsOf (i : Nat) : List Event → List Call
  | [] => []
  | .sent j v :: es => if j = i then .send v :: callsOf i es else callsOf i es
  | .got j _ :: es => if j = i then .recv :: callsOf i es else callsOf i es

/-- The number of sends in a program. -/
def sends : List Call → Nat
  | [] => 0
  | .send _ :: cs => sends cs + 1
  | .recv :: cs => sends cs

/-- The number of receives in a program. -/
def recvs : List Call → Nat
  | [] => 0
  | .send _ :: cs => recvs cs
  | .recv :: cs => recvs cs + 1

/-- Of all programs together. -/
def total (f : List Call → Nat) : List (List Call) → Nat
  | [] => 0
  | p :: ps => f p + total f ps

/-- Nobody can go on although somebody has calls to make. -/
def Stuck (s : State) : Prop :=
  (∀ i, step s (.run i) = none) ∧ ∃ t ∈ s.threads, t.calls ≠ []

/-- Only goroutine `r` receives. -/
def OneReceiver (r : Nat) (programs : List (List Call)) : Prop :=
  ∀ (i : Nat) (p : List Call), programs[i]? = some p → i ≠ r → recvs p = 0

/-- Goroutine `r` only receives. -/
def OnlyReceives (r : Nat) (programs : List (List Call)) : Prop :=
  ∀ p, programs[r]? = some p → sends p = 0

/-- A schedule in which goroutines wait until they are signalled. -/
def NoSpurious (as : List Act) : Prop := ∀ a ∈ as, ∃ i, a = .run i

end Verif.Zgo.Chan.Spec
