import Verif.Vm.ChkModel
/-!
# Checked results: what the documentation of tags says

`api/call/docs.go:74-91`: `=@n` must equal, `<@n` must be less, `>@n` must be greater, with `=` after it also equal;
`!x` must not meet the assertion. The value is a C integer.
-/
namespace Verif.Vm.Chk.Spec

/-- The value meets the assertions, without `!`. -/
def Meets (t : Test) (v : Int) : Prop :=
  match t.equality, t.less, t.more with
  | some a, none, none => v = a.value
  | none, some a, none => v < a.value
  | none, none, some a => a.value < v
  | some _, some a, none => v ≤ a.value
  | some _, none, some a => a.value ≤ v
  | none, some a, some b => v < a.value ∧ b.value < v
  | some _, some a, some b => v ≤ a.value ∧ b.value ≤ v
  | none, none, none => True

/-- The value is right. -/
def Holds (t : Test) (v : Int) : Prop := if t.inverted then ¬ Meets t v else Meets t v

/-- A register has a value of so many bits: C's conventions leave the bits above them open. -/
def Has (bits : Nat) (r : W) (v : Int) : Prop := r.setWidth bits = BitVec.ofInt bits v

end Verif.Vm.Chk.Spec
