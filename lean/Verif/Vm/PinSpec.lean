import Verif.Vm.PinModel
/-!
# Pinned pointers: what is wanted

A history has its last operation first.
-/
namespace Verif.Vm.Pin.Spec

/-- How many pointers were made. -/
def made (h : List Op) : Nat := h.countP (fun | .make _ => true | .free _ => false)

/-- The addresses pointers were made of, in order. -/
def addrs : List Op → List Nat
  | [] => []
  | .make a :: h => addrs h ++ [a]
  | .free _ :: h => addrs h

/-- A pointer that was made and not freed. -/
def Live (h : List Op) (p : Nat) : Prop := p < made h ∧ Op.free p ∉ h

/-- Every pointer is freed once at most, after it was made. -/
def FreedOnce : List Op → Prop
  | [] => True
  | .make _ :: h => FreedOnce h
  | .free p :: h => FreedOnce h ∧ Live h p

/-- The most pointers that were live at one time. -/
def most : List Op → Nat
  | [] => 0
  | op :: h => max (most h) (made (op :: h) - (op :: h).countP (fun | .make _ => false | .free _ => true))

end Verif.Vm.Pin.Spec
