import Verif.Vm.Model
/-!
# The two variants of the machine: model

`callFast` (`api/call/internal/cpu/run_fast.go:51-402`) and `callArch` (`run.go:52-446`) differ in their registers, and in
that `callFast` has no case for the instructions of dyncall (`run_fast.go:82-84`), which it steps over. `MakeFunc`
(`cpu.go:96-125`) chooses.
-/
namespace Verif.Vm.Var

/-- The machine of `callFast` (`run_fast.go:51-402`): three registers; instructions of dyncall do nothing. The functions
are those of the other variant. -/
def fast (arch : Env) (call : (Nat → W) → (Nat → W)) : Env :=
  { arch with
    avail := availFast
    call := call
    ext := fun mo n m => if mo = .slow then some m else arch.ext mo n m }

/-- `MakeFunc` (`cpu.go:96-125`): the machine that runs the program. -/
def makeFunc (arch : Env) (call : (Nat → W) → (Nat → W)) (text : List (BitVec 8)) : Env :=
  if usesFast text then fast arch call else arch

end Verif.Vm.Var
