import Verif.Abi.Model
/-!
# Specification: what a calling convention has to do

Written without the model's helpers: leaves of a value, registers of a location, the layout of Go
types (the sizes a Go program sees with `unsafe.Sizeof` on a 64-bit machine).
-/
namespace Verif.Abi

/-- The numbers of general-purpose and floating-point argument registers of Go's register
convention, from Go's own `abi-internal.md`: RAX, RBX, RCX, RDI, RSI, R8-R11 and X0-X14 on amd64;
R0-R15 and F0-F15 on arm64; R3-R10, R14-R17 and F1-F12 with one more on ppc64; X10-X17, X8, X9,
X18-X23 and F10-F17, F8, F9, F18-F23 on riscv64. -/
def goRegisters (arch : String) : Option Lim :=
  if arch = "amd64" then some ⟨9, 15⟩
  else if arch = "arm64" ∨ arch = "riscv64" then some ⟨16, 16⟩
  else if arch = "ppc64" then some ⟨12, 13⟩
  else none

mutual
/-- How many integers and pointers are in a value. -/
def Val.ints : Val → Nat
  | .b0 | .f4 | .f8 => 0
  | .b1 | .b2 | .b4 | .b8 | .mem | .sizing => 1
  | .struct fs => fs.ints
/-- The same for fields. -/
def Vals.ints : Vals → Nat
  | .nil => 0
  | .cons v vs => v.ints + vs.ints
end

mutual
/-- How many floats are in a value. -/
def Val.floats : Val → Nat
  | .f4 | .f8 => 1
  | .b0 | .b1 | .b2 | .b4 | .b8 | .mem | .sizing => 0
  | .struct fs => fs.floats
/-- The same for fields. -/
def Vals.floats : Vals → Nat
  | .nil => 0
  | .cons v vs => v.floats + vs.floats
end

mutual
/-- The general-purpose registers of a location, in order. -/
def Loc.regs : Loc → List Nat
  | .hw (.reg n) => [n]
  | .multi ls => ls.regs
  | .indirect l => l.regs
  | _ => []
/-- The same for several. -/
def Locs.regs : Locs → List Nat
  | .nil => []
  | .cons l ls => l.regs ++ ls.regs
end

mutual
/-- The floating-point registers of a location, in order. -/
def Loc.fps : Loc → List Nat
  | .hw (.fp n) => [n]
  | .multi ls => ls.fps
  | .indirect l => l.fps
  | _ => []
/-- The same for several. -/
def Locs.fps : Locs → List Nat
  | .nil => []
  | .cons l ls => l.fps ++ ls.fps
end

mutual
/-- The location has the shape of the value: each integer in an integer register, each float in
a floating-point register, each field where its place in the struct says. -/
def Mirrors : Val → Loc → Prop
  | .b0, .none => True
  | .b1, .hw (.reg _) | .b2, .hw (.reg _) | .b4, .hw (.reg _) | .b8, .hw (.reg _) => True
  | .mem, .hw (.reg _) | .sizing, .hw (.reg _) => True
  | .f4, .hw (.fp _) | .f8, .hw (.fp _) => True
  | .struct fs, .multi ls => MirrorsAll fs ls
  | _, _ => False
/-- The same for fields. -/
def MirrorsAll : Vals → Locs → Prop
  | .nil, .nil => True
  | .cons v vs, .cons l ls => Mirrors v l ∧ MirrorsAll vs ls
  | _, _ => False
end

/-- The stack slots: where each value on the stack starts, and how many bytes it has. -/
def slots (size : Val → Nat) : List Val → List Loc → List (Nat × Nat)
  | v :: vs, .hw (.stack off) :: ls => (off, size v) :: slots size vs ls
  | _ :: vs, _ :: ls => slots size vs ls
  | _, _ => []

/-- No two slots share a byte: each one ends before the next one starts. -/
def Disjoint (l : List (Nat × Nat)) : Prop := l.Pairwise (fun a b => a.1 + a.2 ≤ b.1)

/-! ## The layout of Go types -/

/-- The next multiple of `n`. -/
def roundUp (n off : Nat) : Nat := if off % n = 0 then off else off + (n - off % n)

mutual
/-- `unsafe.Alignof`. -/
def GTy.galign : GTy → Nat
  | .int w => w
  | .float32 => 4
  | .float64 => 8
  | .complex64 => 4
  | .complex128 => 8
  | .slice | .string | .iface | .ptr => 8
  | .array _ t => t.galign
  | .struct fs => fs.galign
/-- The largest one. -/
def GTys.galign : GTys → Nat
  | .nil => 1
  | .cons t ts => max t.galign ts.galign
end

mutual
/-- `unsafe.Sizeof`. -/
def GTy.gsize : GTy → Nat
  | .int w => w
  | .float32 => 4
  | .float64 => 8
  | .complex64 => 8
  | .complex128 => 16
  | .slice => 24
  | .string => 16
  | .iface => 16
  | .ptr => 8
  | .array n t => n * t.gsize
  | .struct fs => roundUp fs.galign (fs.extent 0)
/-- Where the fields end, when they start at an offset; a last field without size gets a byte of
its own, so that a pointer to it stays inside of the struct. -/
def GTys.extent : GTys → Nat → Nat
  | .nil, off => off
  | .cons t .nil, off =>
    if t.gsize = 0 ∧ 0 < off then roundUp t.galign off + 1 else roundUp t.galign off + t.gsize
  | .cons t ts, off => ts.extent (roundUp t.galign off + t.gsize)
end

mutual
/-- A type that Go has: integers have a width. -/
def GTy.ok : GTy → Prop
  | .int w => w = 1 ∨ w = 2 ∨ w = 4 ∨ w = 8
  | .array _ t => t.ok
  | .struct fs => fs.ok
  | _ => True
/-- The same for fields. -/
def GTys.ok : GTys → Prop
  | .nil => True
  | .cons t ts => t.ok ∧ ts.ok
end

mutual
/-- The type has no array that takes up memory. -/
def GTy.noArray : GTy → Prop
  | t@(.array _ _) => t.gsize = 0
  | t@(.struct fs) => t.gsize = 0 ∨ fs.noArray
  | _ => True
/-- The same for fields. -/
def GTys.noArray : GTys → Prop
  | .nil => True
  | .cons t ts => t.noArray ∧ ts.noArray
end

mutual
/-- The bytes of a type that are not padding. -/
def GTy.payload : GTy → Nat
  | .struct fs => fs.payload
  | .array n t => n * t.payload
  | t => t.gsize
/-- The same for fields. -/
def GTys.payload : GTys → Nat
  | .nil => 0
  | .cons t ts => t.payload + ts.payload
end

end Verif.Abi
