import Verif.Abi.Model
/-!
# Model: the virtual machine of calls

`api/call/internal/cpu/ops.go`, `run.go`, `run_fast.go`, `cpu.go` and the parts of
`api/call/internal/abi/abi.go` and `api/call/internal/ffi/asm.go` that write programs for it.
Registers are 64 bits. Instructions that read memory, make pointers or go through dyncall are a
parameter of the model (`Env.ext`), and so are the floating-point operations (`Env.float`).
-/
namespace Verif.Vm
open Verif.Abi

/-- A register (gpr.go:6, cpu_64.go). -/
abbrev W := BitVec 64

/-- `Mode` (ops.go:9-27). -/
inductive Mode
  /-- Functions. -/
  | func
  /-- Architecture-specific. -/
  | arch
  /-- Register into $normal. -/
  | load
  /-- dyncall. -/
  | slow
  /-- $normal into a register. -/
  | move
  /-- Mathematics. -/
  | math
  /-- A small number into $normal. -/
  | bits
  /-- Not a mode (7). -/
  | none
deriving DecidableEq

/-- The number of a mode (ops.go:19-27). -/
def Mode.num : Mode → Nat
  | .func => 0 | .arch => 1 | .load => 2 | .slow => 3 | .move => 4 | .math => 5 | .bits => 6 | .none => 7

/-- The mode of a number (ops.go:14-27). -/
def Mode.ofNum : Nat → Mode
  | 0 => .func | 1 => .arch | 2 => .load | 3 => .slow | 4 => .move | 5 => .math | 6 => .bits | _ => .none

/-- `Instruction.Decode` (ops.go:14-16). -/
def decode (op : BitVec 8) : Mode × Nat := (Mode.ofNum (op >>> 5).toNat, (op &&& 31#8).toNat)

/-- `NewFunc`, `NewLoad`, `NewMove`, `NewMath`, `NewBits`, ... (ops.go:29-55): the argument, a
`uint8`, is not masked. -/
def new (m : Mode) (args : Nat) : BitVec 8 := BitVec.ofNat 8 (m.num <<< 5) ||| BitVec.ofNat 8 args

/-- The state of the machine (run.go:56-71). -/
structure M where
  /-- Program counter. -/
  pc : Nat
  /-- $normal. -/
  normal : W
  /-- $length. -/
  length : W
  /-- $assert. -/
  assert : W
  /-- $result. -/
  result : W
  /-- Input registers: 0-15 are R0-R15, 16-31 are X0-X15. -/
  reg : Nat → W
  /-- Output registers. -/
  out : Nat → W
  /-- The heap allocator, the last block first. -/
  heap : List (List (BitVec 8))

/-- What the machine runs in (run.go:52-82, cpu.go). -/
structure Env where
  /-- The registers this variant has; the others panic (reg.go:84-119). -/
  avail : Nat → Bool
  /-- The function that is called: registers to registers. -/
  call : (Nat → W) → (Nat → W)
  /-- Floating-point operations, by number. -/
  float : Nat → W → W → W
  /-- The registered functions (`Wrap`, run.go:297-298). -/
  wrap : Nat → W → Option W
  /-- Instructions on memory. -/
  ext : Mode → Nat → M → Option M

/-- The registers of `RegistersFast` (reg.go:9-18): R0, R1 and X0. -/
def availFast (n : Nat) : Bool := n == 0 || n == 1 || n == 16

/-- The registers of `RegistersArch` on amd64 (cpu_amd64.go:3-23): R0-R8 and X0-X14. -/
def availAmd64 (n : Nat) : Bool := n ≤ 8 || (16 ≤ n && n ≤ 30)

/-- The registers of `RegistersArch` on arm64 (cpu_arm64.go:3, reg.go:60-82): all. -/
def availArm64 (n : Nat) : Bool := n ≤ 31

/-- `SetBool` (gpr.go:14-20). -/
def ofBool (b : Bool) : W := if b then 1 else 0

/-- The mathematics (run.go:130-184): what is written to $result; none is a panic. -/
def math (env : Env) (op : Nat) (m : M) : Option W :=
  match op with
  | 0 => some (ofBool (!(m.result != 0)))
  | 1 => some (ofBool (m.normal.ult m.assert))
  | 2 => some (ofBool (m.assert.ult m.normal))
  | 3 => some (ofBool (m.normal == m.assert))
  | 4 => none
  | 5 | 10 => some (m.normal + m.length)
  | 6 | 11 => some (m.normal - m.length)
  | 7 | 12 => some (m.normal * m.length)
  | 8 => if m.length = 0 then none else some (m.normal / m.length)
  | 9 => if m.length = 0 then none else some (m.normal % m.length)
  | 13 => if m.length = 0 then none else some (m.normal.sdiv m.length)
  | 14 => if m.length = 0 then none else some (m.normal.srem m.length)
  | 15 => some (m.normal &&& m.length)
  | 16 => some (m.normal ||| m.length)
  | 17 => some (m.normal ^^^ m.length)
  | 18 => some (m.normal <<< m.length)
  | 19 => some (m.normal >>> m.length)
  | 20 | 21 | 22 | 23 | 24 | 25 => some (env.float op m.normal m.length)
  | _ => none

/-- Byte `i` of a register (run.go:214-223). -/
def byteOf (w : W) (i : Nat) : BitVec 8 := (w >>> (8 * i)).setWidth 8

/-- `HeapPush8` to `HeapPush64` (run.go:213-223); without a block the index panics. -/
def push (n : Nat) (m : M) : Option M :=
  match m.heap with
  | [] => none
  | b :: bs => some { m with heap := (b ++ (List.range n).map (byteOf m.normal)) :: bs }

/-- A function changed at one place: writing one register (run.go:373-439). -/
def update (f : Nat → W) (i : Nat) (w : W) : Nat → W := fun j => if j = i then w else f j

/-- The functions (run.go:185-305), by number (ops.go:106-149); none is a panic. -/
def func (env : Env) (op : Nat) (m : M) : Option M :=
  match op with
  | 0 => some m
  | 1 => some (if m.assert != 0 then { m with pc := m.normal.toNat } else m)
  | 2 => some { m with reg := env.call m.out, out := env.call m.out }
  | 3 => (env.wrap m.length.toNat m.normal).map (fun w => { m with normal := w })
  | 5 => some { m with normal := ofBool (m.normal != 0) }
  | 6 => some { m with normal := m.length, length := m.normal }
  | 7 => some { m with normal := m.assert, assert := m.normal }
  | 8 => some { m with normal := m.result, result := m.normal }
  | 9 => some { m with heap := [] :: m.heap }
  | 10 => push 1 m
  | 11 => push 2 m
  | 12 => push 4 m
  | 13 => push 8 m
  | 14 | 15 | 23 | 24 | 25 | 26 | 27 | 28 | 29 | 30 => env.ext .func op m
  | _ => none

/-- One instruction (run.go:88-440), without the step of the program counter. On amd64 `Call`
puts the address of the function in R0 first (run.go:193-204); that is part of `Env.call`. -/
def exec (env : Env) (op : BitVec 8) (m : M) : Option M :=
  match decode op with
  | (.bits, n) => some { m with normal := BitVec.ofNat 64 n }
  | (.slow, n) => env.ext .slow n m
  | (.math, n) => (math env n m).map (fun w => { m with result := w })
  | (.func, n) => func env n m
  | (.load, n) => if env.avail n then some { m with normal := m.reg n } else none
  | (.move, n) => if env.avail n then some { m with out := update m.out n m.normal } else none
  | (.arch, _) | (.none, _) => some m

/-- The loop (run.go:86-87,441): how the machine is after at most `fuel` instructions if it has
ended by then; none is a panic, or not enough. -/
def run (env : Env) (text : List (BitVec 8)) : Nat → M → Option M
  | 0, m => if text.length ≤ m.pc then some m else none
  | fuel + 1, m =>
    match text[m.pc]? with
    | none => some m
    | some op => (exec env op m).bind (fun m' => run env text fuel { m' with pc := m'.pc + 1 })

/-- The machine at the start of a call (run.go:56-71). -/
def start (args : Nat → W) : M := ⟨0, 0, 0, 0, 0, args, args, []⟩

/-- The registers a program mentions (cpu.go:97-110). -/
def mentions (text : List (BitVec 8)) : List Nat :=
  text.filterMap (fun op => match decode op with
    | (.load, n) | (.move, n) => some n
    | _ => none)

/-- `MakeFunc` (cpu.go:96-125): whether the fast variant is used. -/
def usesFast (text : List (BitVec 8)) : Bool :=
  (mentions text).all (fun n => if n < 16 then n ≤ 1 else n - 16 ≤ 0)

/-! ## Writing programs -/

mutual
/-- `Location.Read` (abi.go:255-277); none is a panic. -/
def read : Loc → Option (List (BitVec 8))
  | .multi ls => readTwo ls
  | .hw (.reg n) => some [new .load n]
  | .hw (.fp n) => some [new .load (16 + n)]
  | _ => none
/-- Two places (abi.go:259-261). -/
def readTwo : Locs → Option (List (BitVec 8))
  | .cons a (.cons b .nil) => do
    let y ← read b
    let x ← read a
    some (y ++ [new .func 6] ++ x)
  | _ => none
end

mutual
/-- `Location.Send` (abi.go:279-301); none is a panic. -/
def send : Loc → Option (List (BitVec 8))
  | .multi ls => sendTwo ls
  | .hw (.reg n) => some [new .move n]
  | .hw (.fp n) => some [new .move (16 + n)]
  | _ => none
/-- Two places (abi.go:283-285). -/
def sendTwo : Locs → Option (List (BitVec 8))
  | .cons a (.cons b .nil) => do
    let x ← send a
    let y ← send b
    some (x ++ [new .func 6] ++ y)
  | _ => none
end

/-- The arguments of a compiled call, for values (asm.go:176-187); none is a panic. -/
def compileArgs : List (Loc × Loc) → Option (List (BitVec 8))
  | [] => some []
  | (r, s) :: l => do
    let eq ← r.equals s
    let rest ← compileArgs l
    if eq then some rest
    else
      let a ← read r
      let b ← send s
      some (a ++ b ++ rest)

/-- A compiled call without a result (asm.go:216-219). -/
def compileCall (l : List (Loc × Loc)) : Option (List (BitVec 8)) :=
  (compileArgs l).map (fun t => t ++ [new .func 2])

end Verif.Vm
