import Verif.Vm.Model
/-!
# Checked results of calls: model

What `compile` writes for a function that returns `error` (`api/call/internal/ffi/asm.go:29-56`, `:85-128`, `:216-250`)
and the instruction `ErrorMake` (`api/call/internal/cpu/run.go:286-295`), on the machine of `Verif.Vm.Model`.
-/
namespace Verif.Vm.Chk
open Verif.Abi

/-- `Argument` (`tag.go:88-94`): the number of a parameter if it is not zero, or a constant's name, or a number. -/
structure Arg where
  index : Nat
  named : Bool
  value : Int
  deriving DecidableEq, Repr

/-- `Assertions` (`tag.go:74-85`); `other` is any of the assertions that `assert` refuses: indirect, format, type,
lifetime, overlaps. -/
structure Test where
  inverted : Bool
  equality : Option Arg
  less : Option Arg
  more : Option Arg
  other : Bool
  deriving DecidableEq, Repr

/-- What becomes of a compilation. -/
inductive Out
  | panic
  | error
  | code (text : List (BitVec 8))
  deriving DecidableEq, Repr

/-- First one, then the other. -/
def Out.andThen : Out → Out → Out
  | .code a, .code b => .code (a ++ b)
  | .code _, o => o
  | o, _ => o

/-- `check` (`asm.go:29-56`) for a result: a number below 32 is put into $assert by way of $normal. The parameters are
looked up in the type of the result, which has none (`asm.go:39`), so that the index panics; results that are functions
are left out. -/
def check (a : Arg) : Out :=
  if 0 < a.index then .panic
  else if a.named = false ∧ 0 ≤ a.value ∧ a.value < 32 then
    .code [new .func 7, new .bits a.value.toNat, new .func 7]
  else .error

/-- One assertion, if it is there (`asm.go:90-109`): `Same`, `Less` or `More`. -/
def one (a : Option Arg) (op : Nat) : Out :=
  match a with
  | none => .code []
  | some a => (check a).andThen (.code [new .math op])

/-- `assert` (`asm.go:85-128`): what is written, and whether anything was checked. -/
def assert (t : Test) : Out :=
  ((one t.equality 3).andThen (one t.less 1)).andThen
    ((one t.more 2).andThen (if t.other then .error else .code (if t.inverted then [new .math 0] else [])))

/-- Whether `assert` says that something was checked (`asm.go:91`, `:97`, `:103`, `:124`). -/
def checked (t : Test) : Bool := t.equality.isSome || t.less.isSome || t.more.isSome || t.inverted

/-- After the call (`asm.go:220-250`), for a result that is returned as an `error`: the result is read, checked, read
again, made into an error and sent. -/
def result (t : Test) (rd sd : Loc) : Out :=
  match read rd, send sd with
  | some r, some s =>
    (Out.code r).andThen <| (assert t).andThen <| (Out.code (if checked t then r else [])).andThen
      (.code (new .func 27 :: s))
  | _, _ => .panic

/-- `compile` (`asm.go:164-250`) for arguments that are values. -/
def compile (l : List (Loc × Loc)) (t : Test) (rd sd : Loc) : Out :=
  match compileCall l with
  | none => .panic
  | some text => (Out.code text).andThen (result t rd sd)

/-- `ErrorMake` (`run.go:286-295`): the two words of an `error` are in $normal and $length. The first is the address of the
table of methods of `cpu.Error`, and the second is eight bytes further: the address of the error itself is in the other
word of `err` and is not looked at. -/
def errorMake (itab : W) (m : M) : M :=
  if m.result = 0 then { m with normal := itab, length := itab + 8 } else { m with normal := 0, length := 0 }

/-- The machine with that instruction (`run.go:286`, `ops.go:143`). -/
def machine (env : Env) (itab : W) : Env :=
  { env with ext := fun mo n m => if mo = .func ∧ n = 27 then some (errorMake itab m) else env.ext mo n m }

end Verif.Vm.Chk
