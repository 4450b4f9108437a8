import Verif.Vm.Model
/-!
# Go functions given to C: model

`callback` (`api/call/internal/ffi/callback.go:15-182`), with the types of C of `ffi_amd64.go:180-235` (`ffi_arm64.go` has
the same), and dyncall's `NewCallback` and `bridge_callback` (`api/call/internal/cgo/dyncall/dyncall_vm.go:96-102`,
`dyncall.go:39-44`). A register or a slot on the stack that C passes an argument in is 64 bits, of which those beyond
the argument's type are arbitrary. Floating-point values are their bits, and conversions from `float` to `double` and
back leave them alone.
-/
namespace Verif.Vm.Cb

/-- `reflect.Kind`, those that do not occur in `sigRune` (`callback.go:15-50`) together as `other`. -/
inductive Kind
  | bool | int | int8 | int16 | int32 | int64 | uint | uint8 | uint16 | uint32 | uint64 | uintptr
  | float32 | float64 | string | pointer | unsafePointer | other
  deriving DecidableEq, Repr

/-- dyncall's types (`dyncall.go:14-32`). -/
inductive Sig
  | void | bool | char | uchar | short | ushort | int | uint | long | ulong | longlong | ulonglong | float | double
  | string | pointer
  deriving DecidableEq, Repr

/-- The cases of `sigRune` in order (`callback.go:17-45`), the kinds being those of the types of C (`ffi_amd64.go:181-212`):
`c_bool` is `uint8`, and `c_short` is asked for twice. -/
def cases : List (Kind × Sig) :=
  [(.uint8, .bool), (.int8, .char), (.uint8, .uchar), (.int16, .short), (.int16, .ushort), (.int32, .int), (.uint32, .uint),
   (.int64, .long), (.uint64, .ulong), (.int64, .longlong), (.uint64, .ulonglong), (.float32, .float), (.float64, .double),
   (.string, .string), (.pointer, .pointer)]

/-- `sigRune` (`callback.go:15-50`): none is a panic. -/
def sigRune (k : Kind) : Option Sig := (cases.find? (fun c => c.1 = k)).map (·.2)

/-- A type of Go functions: the kinds of its parameters and results (`callback.go:52-63`). -/
structure FT where
  ins : List Kind
  outs : List Kind
  deriving DecidableEq, Repr

/-- `newSignature` (`callback.go:52-63`). -/
def newSignature (t : FT) : Option (List Sig × Sig) := do
  let args ← t.ins.mapM sigRune
  let ret ← match t.outs with
    | k :: _ :: _ => sigRune k
    | _ => some .void
  some (args, ret)

/-- Values of Go, of a kind (`callback.go:78-80`). -/
inductive GV
  | bool (b : Bool)
  | int8 (x : BitVec 8) | int16 (x : BitVec 16) | int32 (x : BitVec 32) | int64 (x : BitVec 64)
  | uint8 (x : BitVec 8) | uint16 (x : BitVec 16) | uint32 (x : BitVec 32) | uint64 (x : BitVec 64)
  | float32 (x : BitVec 32) | float64 (x : BitVec 64)
  | string (bs : List (BitVec 8))
  | pointer (x : BitVec 64)
  | other
  deriving DecidableEq, Repr

/-- The zero value of a kind (`callback.go:79`). -/
def zero : Kind → GV
  | .bool => .bool false
  | .int8 => .int8 0
  | .int16 => .int16 0
  | .int32 => .int32 0
  | .int64 => .int64 0
  | .uint8 => .uint8 0
  | .uint16 => .uint16 0
  | .uint32 => .uint32 0
  | .uint64 => .uint64 0
  | .float32 => .float32 0
  | .float64 => .float64 0
  | .string => .string []
  | .pointer | .unsafePointer => .pointer 0
  | _ => .other

/-- `C.GoString` (`callback.go:115`): the bytes before the first 0, with a bound on how far it looks. -/
def goString (mem : Nat → BitVec 8) (p : Nat) : Nat → List (BitVec 8)
  | 0 => []
  | fuel + 1 => if mem p = 0 then [] else mem p :: goString mem (p + 1) fuel

/-- `Value.SetInt` (`callback.go:92`, `:96`, …): none is reflect's panic. -/
def setInt (k : Kind) (x : BitVec 64) : Option GV :=
  match k with
  | .int8 => some (.int8 (x.setWidth 8))
  | .int16 => some (.int16 (x.setWidth 16))
  | .int32 => some (.int32 (x.setWidth 32))
  | .int64 => some (.int64 x)
  | .int => some .other
  | _ => none

/-- `Value.SetUint` (`callback.go:94`, `:98`, …). -/
def setUint (k : Kind) (x : BitVec 64) : Option GV :=
  match k with
  | .uint8 => some (.uint8 (x.setWidth 8))
  | .uint16 => some (.uint16 (x.setWidth 16))
  | .uint32 => some (.uint32 (x.setWidth 32))
  | .uint64 => some (.uint64 x)
  | .uint | .uintptr => some .other
  | _ => none

/-- `Value.SetBool` (`callback.go:87`, `:89`). -/
def setBool (k : Kind) (b : Bool) : Option GV := if k = .bool then some (.bool b) else none

/-- The switch over the argument's type (`callback.go:82-133`): what is in the argument's place is read as that type and
set. The zero value stays for a `bool` other than 0 and 1. Types of kind `Pointer` have no methods, so that the assertion
at `:122` fails. -/
def argument (mem : Nat → BitVec 8) (fuel : Nat) (k : Kind) (s : Sig) (w : W) : Option GV :=
  match s with
  | .bool =>
    if w.setWidth 32 = 0 then setBool k false else if w.setWidth 32 = (1 : BitVec 32) then setBool k true
    else some (zero k)
  | .char => setInt k ((w.setWidth 8).signExtend 64)
  | .uchar => setUint k ((w.setWidth 8).setWidth 64)
  | .short => setInt k ((w.setWidth 16).signExtend 64)
  | .ushort => setUint k ((w.setWidth 16).setWidth 64)
  | .int => setInt k ((w.setWidth 32).signExtend 64)
  | .uint => setUint k ((w.setWidth 32).setWidth 64)
  | .long | .longlong => setInt k w
  | .ulong | .ulonglong => setUint k w
  | .float => if k = .float32 then some (.float32 (w.setWidth 32)) else none
  | .double => if k = .float64 then some (.float64 w) else none
  | .string => if k = .string then some (.string (goString mem w.toNat fuel)) else none
  | .pointer => if k = .unsafePointer then some (.pointer w) else none
  | .void => none

/-- The loop over the arguments (`callback.go:81-134`). -/
def arguments (mem : Nat → BitVec 8) (fuel : Nat) : List Kind → List Sig → List W → Option (List GV)
  | k :: ks, s :: ss, w :: ws => do
    let v ← argument mem fuel k s w
    let vs ← arguments mem fuel ks ss ws
    some (v :: vs)
  | _, _, _ => some []

/-- What is written to where dyncall expects the result (`callback.go:136-175`): its type and its bits. None is a panic; a
`void` writes nothing. -/
def returned (s : Sig) (results : List GV) : Option (Option (BitVec 64)) :=
  match s, results with
  | .void, _ => some none
  | .bool, .bool b :: _ => some (some (if b then 1 else 0))
  | .char, .int8 x :: _ => some (some (x.signExtend 64))
  | .uchar, .uint8 x :: _ => some (some (x.setWidth 64))
  | .short, .int16 x :: _ => some (some (x.signExtend 64))
  | .ushort, .uint16 x :: _ => some (some (x.setWidth 64))
  | .int, .int32 x :: _ => some (some (x.signExtend 64))
  | .uint, .uint32 x :: _ => some (some (x.setWidth 64))
  | .long, .int64 x :: _ | .longlong, .int64 x :: _ => some (some x)
  | .ulong, .uint64 x :: _ | .ulonglong, .uint64 x :: _ => some (some x)
  | .float, .float32 x :: _ => some (some (x.setWidth 64))
  | .double, .float64 x :: _ => some (some x)
  | .pointer, .pointer x :: _ => some (some x)
  | _, _ => none

/-- What becomes of C's call of a function pointer (`callback.go:76-178`). -/
inductive Out
  /-- The process ends, before the Go function is called or after. -/
  | panic
  /-- The Go function was called with these, and C got this, if anything. -/
  | called (args : List GV) (result : Option (BitVec 64))
  deriving DecidableEq, Repr

/-- `callback` (`callback.go:68-182`) and C's call of what it makes. `f` is the Go function. -/
def call (mem : Nat → BitVec 8) (fuel : Nat) (t : FT) (f : List GV → List GV) (ws : List W) : Out :=
  match newSignature t with
  | none => .panic
  | some (args, ret) =>
    match arguments mem fuel t.ins args ws with
    | none => .panic
    | some vs =>
      match returned ret (f vs) with
      | none => .panic
      | some r => .called vs r

/-! ## The list of functions -/

/-- Where a goroutine is in `NewCallback` (`dyncall_vm.go:96-102`): `functions` read for `append`, written back, its length
read. -/
inductive Ph
  | begin
  | loaded (fs : List Nat)
  | stored
  | done (userdata : Nat)
  deriving DecidableEq, Repr

/-- The list, and every goroutine, the `g`-th of which makes a callback of function `g` (`dyncall.go:39`). -/
structure R where
  functions : List Nat
  ph : Nat → Ph

/-- One step of one goroutine (`dyncall_vm.go:97-101`). -/
def R.step (s : R) (g : Nat) : R :=
  let put (p : Ph) : Nat → Ph := fun i => if i = g then p else s.ph i
  match s.ph g with
  | .begin => { s with ph := put (.loaded s.functions) }
  | .loaded fs => { functions := fs ++ [g], ph := put .stored }
  | .stored => { s with ph := put (.done s.functions.length) }
  | .done _ => s

/-- A schedule, from an empty list (`dyncall_vm.go:97-101`). -/
def R.run (schedule : List Nat) : R := schedule.foldl R.step ⟨[], fun _ => .begin⟩

/-- `bridge_callback` (`dyncall.go:39-44`): the function that is called; none is an index out of range. -/
def R.bridge (s : R) (userdata : Nat) : Option Nat := s.functions[userdata - 1]?

end Verif.Vm.Cb
