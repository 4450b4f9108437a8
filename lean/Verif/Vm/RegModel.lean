/-!
# Model: the registers (api/call/internal/cpu/gpr.go, fpr.go, cpu_64.go)

A register is 64 bits on amd64 and arm64 (`cpu_64.go:7-9`). Numbers and pointers are their bits, signed ones in
two's complement, floats as IEEE 754. A setter that casts the address of its argument to the address of a register
and loads from it (`gpr.go:30`) reads eight bytes; when the argument has fewer, the rest is whatever the memory after
it holds, a parameter of the model (`junk`). Both processors are little-endian.
-/
namespace Verif.Vm.Reg

/-- The types of values, other than booleans, that registers have methods for (`gpr.go`, `fpr.go`, `cpu_64.go`). -/
inductive Kind
  | int8 | int16 | int32 | int64 | int
  | uint8 | uint16 | uint32 | uint64 | uint | uintptr
  | float32 | float64 | pointer
  deriving DecidableEq, Repr

/-- How many bits a Go variable of the type has: the size of the loads in the getters (`gpr.go:24-131`). -/
def Kind.bits : Kind → Nat
  | .int8 | .uint8 => 8
  | .int16 | .uint16 => 16
  | .int32 | .uint32 | .float32 => 32
  | .int64 | .int | .uint64 | .uint | .uintptr | .float64 | .pointer => 64

/-- The getters of either register (`gpr.go:23-126`, `fpr.go:23-117`, `cpu_64.go:12-64`): a load of so many bytes
from where the register is. `Register.Uintptr` (`gpr.go:99`) converts, which on 64 bits is the same. -/
def get (k : Kind) (r : BitVec 64) : BitVec k.bits := r.setWidth k.bits

/-- `*(*Register)(unsafe.Pointer(&i))` (`gpr.go:30`, `fpr.go:30`): eight bytes from where a variable is. -/
def load8 {w : Nat} (junk : BitVec 64) (v : BitVec w) : BitVec 64 := v.setWidth 64 ||| (junk <<< w)

/-- How a setter of `Register` gets its 64 bits (`gpr.go:28-131`, `cpu_64.go:17-39`). -/
def setGpr (junk : BitVec 64) : (k : Kind) → BitVec k.bits → BitVec 64
  | .int8, v => load8 junk v
  | .int32, v => load8 junk v
  | .int, v => load8 junk v
  | .uint8, v => v.setWidth 64
  | .int16, v => v.signExtend 64
  | .uint16, v => v.setWidth 64
  | .uint32, v => v.setWidth 64
  | .uint, v => v.setWidth 64
  | .uintptr, v => v.setWidth 64
  | .float32, v => load8 junk v
  | .pointer, v => load8 junk v
  | .int64, v => load8 junk v
  | .uint64, v => load8 junk v
  | .float64, v => load8 junk v

/-- The setters of `FloatingPointRegister` (`fpr.go:28-122`, `cpu_64.go:47-69`): all cast. -/
def setFpr (junk : BitVec 64) (k : Kind) (v : BitVec k.bits) : BitVec 64 := load8 junk v

/-- `Register.SetBool` (`gpr.go:14-20`). -/
def setBoolGpr (b : Bool) : BitVec 64 := if b then 1 else 0

/-- `Register.Bool` (`gpr.go:9-11`). -/
def boolGpr (r : BitVec 64) : Bool := r != 0

/-- `FloatingPointRegister.SetBool` (`fpr.go:14-20`): the floats 1 and 0. -/
def setBoolFpr (b : Bool) : BitVec 64 := if b then 0x3FF0000000000000 else 0

/-- `FloatingPointRegister.Bool` (`fpr.go:9-11`): a comparison of floats, for which both zeros are 0 and no NaN is. -/
def boolFpr (r : BitVec 64) : Bool := r != 0 && r != 0x8000000000000000

/-- The slow path's call of a C function that returns one byte, then `Bool` (`run.go:109-110`, `:299-300`), as
`compile` (`asm.go:223-228`) has it for functions of Go that return a bool. `c` is the byte C returned. -/
def slowBool (junk : BitVec 64) (c : BitVec 8) : Bool :=
  boolGpr (setBoolGpr (boolGpr (get .uint (setGpr junk .int8 c))))

end Verif.Vm.Reg
