/-
Model of the AMD64 assembler: cpu/amd64/asm.go and the functions of cpu/amd64/api.go that reach it (`Add`, `AddWithCarry`, `BitwiseAnd`, `BitwiseOr`,
`BitwiseXor`, `MemoryAddWithCarry`, `MemoryBitwiseAnd`, `MemoryBitwiseOr`, `MemoryBitwiseXor`, `Return`).

Go's `uint8` is a bit vector of 8 bits, so shifts lose bits as they do in Go. The unexported instructions that no function of the package
returns (`mov`, `sub`, `cmp`, `test`, `push`, `pop`, `jmp`, `call`, `mul`, `div`) are not modelled, nor is the mapping of the bytes into memory (`Compile`).
-/
namespace Verif.Amd64

/-- A byte of the output (cpu/amd64/asm.go:35). -/
abbrev Byte := BitVec 8

/-- The types `adc`, `add`, `and`, `or` and `xor`, cpu/amd64/asm.go:31, 160, 648, 766, 884. -/
inductive Op where
  | add | or | adc | and | xor
deriving DecidableEq

/-- The type parameter of `Register` and `Pointer`, cpu/amd64/gpr.go:3 and 14. -/
inductive Width where
  | b | w | d | q
deriving DecidableEq

/-- The pairs of operand types that the constraints `canBeAddedToRegister` and `canBeAddedToPointer` let through, cpu/amd64/gpr.go:11-35. -/
inductive Call where
  | rr (op : Op) (w : Width) (dst src : Byte)
  | ri8 (op : Op) (dst : Byte) (src : BitVec 8)
  | ri16 (op : Op) (dst : Byte) (src : BitVec 16)
  | ri32 (op : Op) (dst : Byte) (src : BitVec 32)
  | rm (op : Op) (w : Width) (dst src : Byte)
  | mr (op : Op) (w : Width) (dst src : Byte)
  | mi8 (op : Op) (dst : Byte) (src : BitVec 8)
  | mi16 (op : Op) (dst : Byte) (src : BitVec 16)
  | mi32 (op : Op) (dst : Byte) (src : BitVec 32)
  | ret

/-- `byte(src), byte(src>>8)` (e.g. cpu/amd64/asm.go:72). -/
def le16 (v : BitVec 16) : List Byte := [v.setWidth 8, (v >>> 8).setWidth 8]
/-- `byte(src), byte(src>>8), byte(src>>16), byte(src>>24)` (e.g. cpu/amd64/asm.go:84). -/
def le32 (v : BitVec 32) : List Byte := [v.setWidth 8, (v >>> 8).setWidth 8, (v >>> 16).setWidth 8, (v >>> 24).setWidth 8]

/-- The prefix computed with `if dst >= 8 { rex |= 0x04 }; if src >= 8 { rex |= 0x01 }`, e.g. cpu/amd64/asm.go:49-55. -/
def rexRB (dst src : Byte) : Byte := 0x48 ||| (if 8 ≤ dst.toNat then 0x04 else 0) ||| (if 8 ≤ src.toNat then 0x01 else 0)

/-- `rex := byte(0); if dst >= 8 { rex = 0x41 }; if rex != 0 { b = append(b, rex) }`, e.g. cpu/amd64/asm.go:129-135. -/
def optB (dst : Byte) : List Byte := if 8 ≤ dst.toNat then [0x41] else []

/-- Two registers, `adc`: cpu/amd64/asm.go:38-56; the others: 167-185, 655-673, 773-791, 891-909. -/
def emitRR : Op → Width → Byte → Byte → List Byte
  | .adc, .b, dst, src => [0x10, 0xC0 ||| dst <<< 3 ||| src]
  | .adc, .w, dst, src => [0x66, 0x11, 0xC0 ||| dst <<< 3 ||| src]
  | .adc, .d, dst, src => [0x11, 0xC0 ||| dst <<< 3 ||| src]
  | .adc, .q, dst, src => [rexRB dst src, 0x11, 0xC0 ||| (dst &&& 7) <<< 3 ||| (src &&& 7)]
  | .add, .b, dst, src => [0x00, 0xC0 ||| src <<< 3 ||| dst]
  | .add, .w, dst, src => [0x66, 0x01, 0xC0 ||| src <<< 3 ||| dst]
  | .add, .d, dst, src => [0x01, 0xC0 ||| src <<< 3 ||| dst]
  | .add, .q, dst, src => [rexRB dst src, 0x01, 0xC0 ||| (src &&& 7) <<< 3 ||| (dst &&& 7)]
  | .and, .b, dst, src => [0x20, 0xC0 ||| src <<< 3 ||| dst]
  | .and, .w, dst, src => [0x66, 0x21, 0xC0 ||| src <<< 3 ||| dst]
  | .and, .d, dst, src => [0x21, 0xC0 ||| src <<< 3 ||| dst]
  | .and, .q, dst, src => [rexRB dst src, 0x21, 0xC0 ||| (src &&& 7) <<< 3 ||| (dst &&& 7)]
  | .or, .b, dst, src => [0x08, 0xC0 ||| src <<< 3 ||| dst]
  | .or, .w, dst, src => [0x66, 0x09, 0xC0 ||| src <<< 3 ||| dst]
  | .or, .d, dst, src => [0x09, 0xC0 ||| src <<< 3 ||| dst]
  | .or, .q, dst, src => [rexRB dst src, 0x09, 0xC0 ||| (src &&& 7) <<< 3 ||| (dst &&& 7)]
  | .xor, .b, dst, src => [0x30, 0xC0 ||| src <<< 3 ||| dst]
  | .xor, .w, dst, src => [0x66, 0x31, 0xC0 ||| src <<< 3 ||| dst]
  | .xor, .d, dst, src => [0x31, 0xC0 ||| src <<< 3 ||| dst]
  | .xor, .q, dst, src => [rexRB dst src, 0x31, 0xC0 ||| (src &&& 7) <<< 3 ||| (dst &&& 7)]

/-- A byte register and an immediate, cpu/amd64/asm.go:58-63, 188-193, 676-681, 794-799, 912-917. -/
def emitRI8 : Op → Byte → BitVec 8 → List Byte
  | .adc, dst, src => if dst == 0 then [0x14, src] else [0x80, 0xD0 ||| dst, src]
  | .add, dst, src => if dst == 0 then [0x04, src] else [0x80, 0xC0 ||| dst, src]
  | .and, dst, src => if dst == 0 then [0x24, src] else [0x80, 0xE0 ||| dst, src]
  | .or, dst, src => if dst == 0 then [0x0C, src] else [0x80, 0xC8 ||| dst, src]
  | .xor, dst, src => if dst == 0 then [0x34, src] else [0x80, 0xF0 ||| dst, src]

/-- A 16-bit register and an immediate, cpu/amd64/asm.go:67-72, 197-202, 682-687, 800-805, 918-923. -/
def emitRI16 : Op → Byte → BitVec 16 → List Byte
  | .adc, dst, src => if dst == 0 then 0x66 :: 0x15 :: le16 src else 0x66 :: 0x81 :: (0xD0 ||| dst) :: le16 src
  | .add, dst, src => if dst == 0 then 0x66 :: 0x05 :: le16 src else 0x66 :: 0x81 :: (0xC0 ||| dst) :: le16 src
  | .and, dst, src => if dst == 0 then 0x66 :: 0x25 :: le16 src else 0x66 :: 0x81 :: (0xE0 ||| dst) :: le16 src
  | .or, dst, src => if dst == 0 then 0x66 :: 0x0D :: le16 src else 0x66 :: 0x81 :: (0xC8 ||| dst) :: le16 src
  | .xor, dst, src => if dst == 0 then 0x66 :: 0x35 :: le16 src else 0x66 :: 0x81 :: (0xF0 ||| dst) :: le16 src

/-- A 32-bit register and an immediate, cpu/amd64/asm.go:79-84, 209-214, 688-693, 806-811, 924-929. -/
def emitRI32 : Op → Byte → BitVec 32 → List Byte
  | .adc, dst, src => if dst == 0 then 0x05 :: le32 src else 0x81 :: (0xD0 ||| dst) :: le32 src
  | .add, dst, src => if dst == 0 then 0x05 :: le32 src else 0x81 :: (0xC0 ||| dst) :: le32 src
  | .and, dst, src => if dst == 0 then 0x25 :: le32 src else 0x81 :: (0xE0 ||| dst) :: le32 src
  | .or, dst, src => if dst == 0 then 0x0D :: le32 src else 0x81 :: (0xC8 ||| dst) :: le32 src
  | .xor, dst, src => if dst == 0 then 0x35 :: le32 src else 0x81 :: (0xF0 ||| dst) :: le32 src

/-- A register and memory: `adc` cpu/amd64/asm.go:86-104, `add` 217-235; the others have no such case and panic, 756-757, 874-875, 992-993. -/
def emitRM : Op → Width → Byte → Byte → Option (List Byte)
  | .adc, .b, dst, src => some [0x12, dst <<< 3 ||| src]
  | .adc, .w, dst, src => some [0x66, 0x13, dst <<< 3 ||| src]
  | .adc, .d, dst, src => some [0x13, dst <<< 3 ||| src]
  | .adc, .q, dst, src => some [rexRB dst src, 0x13, (dst &&& 7) <<< 3 ||| (src &&& 7)]
  | .add, .b, dst, src => some [0x00, src <<< 3 ||| dst]
  | .add, .w, dst, src => some [0x66, 0x01, src <<< 3 ||| dst]
  | .add, .d, dst, src => some [0x01, src <<< 3 ||| dst]
  | .add, .q, dst, src => some [rexRB dst src, 0x01, (src &&& 7) <<< 3 ||| (dst &&& 7)]
  | _, _, _, _ => none

/-- Memory and a register: `adc` cpu/amd64/asm.go:106-124, `add` 238-256 (reached by no function of the package), the others 703-721, 821-839, 939-957. -/
def emitMR : Op → Width → Byte → Byte → List Byte
  | .adc, .b, dst, src => [0x10, src <<< 3 ||| (dst &&& 7)]
  | .adc, .w, dst, src => [0x66, 0x11, src <<< 3 ||| (dst &&& 7)]
  | .adc, .d, dst, src => [0x11, src <<< 3 ||| (dst &&& 7)]
  | .adc, .q, dst, src => [rexRB src dst, 0x11, (src &&& 7) <<< 3 ||| (dst &&& 7)]
  | .add, .b, dst, src => [0x02, src <<< 3 ||| (dst &&& 7)]
  | .add, .w, dst, src => [0x66, 0x03, src <<< 3 ||| (dst &&& 7)]
  | .add, .d, dst, src => [0x03, src <<< 3 ||| (dst &&& 7)]
  | .add, .q, dst, src => [rexRB src dst, 0x03, (src &&& 7) <<< 3 ||| (dst &&& 7)]
  | .and, .b, dst, src => [0x20, (dst &&& 7) <<< 3 ||| src]
  | .and, .w, dst, src => [0x66, 0x21, (dst &&& 7) <<< 3 ||| src]
  | .and, .d, dst, src => [0x21, (dst &&& 7) <<< 3 ||| src]
  | .and, .q, dst, src => [rexRB dst src, 0x21, (dst &&& 7) <<< 3 ||| (src &&& 7)]
  | .or, .b, dst, src => [0x08, (dst &&& 7) <<< 3 ||| src]
  | .or, .w, dst, src => [0x66, 0x09, (dst &&& 7) <<< 3 ||| src]
  | .or, .d, dst, src => [0x09, (dst &&& 7) <<< 3 ||| src]
  | .or, .q, dst, src => [rexRB dst src, 0x09, (dst &&& 7) <<< 3 ||| (src &&& 7)]
  | .xor, .b, dst, src => [0x30, (dst &&& 7) <<< 3 ||| src]
  | .xor, .w, dst, src => [0x66, 0x31, (dst &&& 7) <<< 3 ||| src]
  | .xor, .d, dst, src => [0x31, (dst &&& 7) <<< 3 ||| src]
  | .xor, .q, dst, src => [rexRB dst src, 0x31, (dst &&& 7) <<< 3 ||| (src &&& 7)]

/-- Memory and an immediate byte, cpu/amd64/asm.go:127-136, 259-268, 724-733, 842-851, 960-969. -/
def emitMI8 : Op → Byte → BitVec 8 → List Byte
  | .adc, dst, src => optB dst ++ [0x80, 0x10 ||| (dst &&& 7), src]
  | .add, dst, src => optB dst ++ [0x80, 0x00 ||| (dst &&& 7), src]
  | .and, dst, src => optB dst ++ [0x80, 0x20 ||| (dst &&& 7), src]
  | .or, dst, src => optB dst ++ [0x80, 0x08 ||| (dst &&& 7), src]
  | .xor, dst, src => optB dst ++ [0x80, 0x30 ||| (dst &&& 7), src]

/-- Memory and 16 immediate bits, cpu/amd64/asm.go:734-743, 852-861, 970-979. `adc` and `add` have a case for `uint16` instead of `Imm16`, 137 and 269, and panic. -/
def emitMI16 : Op → Byte → BitVec 16 → Option (List Byte)
  | .adc, _, _ => none
  | .add, _, _ => none
  | .and, dst, src => some (optB dst ++ 0x66 :: 0x81 :: (0x20 ||| (dst &&& 7)) :: le16 src)
  | .or, dst, src => some (optB dst ++ 0x66 :: 0x81 :: (0x08 ||| (dst &&& 7)) :: le16 src)
  | .xor, dst, src => some (optB dst ++ 0x66 :: 0x81 :: (0x30 ||| (dst &&& 7)) :: le16 src)

/-- Memory and 32 immediate bits, cpu/amd64/asm.go:147-154, 279-286, 744-755, 862-873, 980-991. -/
def emitMI32 : Op → Byte → BitVec 32 → List Byte
  | .adc, dst, src => (0x48 ||| (if 8 ≤ dst.toNat then 0x01 else 0)) :: 0x81 :: (0x10 ||| (dst &&& 7)) :: le32 src
  | .add, dst, src => (0x48 ||| (if 8 ≤ dst.toNat then 0x01 else 0)) :: 0x81 :: (0x00 ||| (dst &&& 7)) :: le32 src
  | .and, dst, src => optB dst ++ 0x81 :: (0x20 ||| (dst &&& 7)) :: le32 src
  | .or, dst, src => optB dst ++ 0x81 :: (0x08 ||| (dst &&& 7)) :: le32 src
  | .xor, dst, src => optB dst ++ 0x81 :: (0x30 ||| (dst &&& 7)) :: le32 src

/-- `AppendAMD64` (cpu/amd64/asm.go:35, 164, 652, 770, 888); `none` is a panic. -/
def emit : Call → Option (List Byte)
  | .rr op w dst src => some (emitRR op w dst src)
  | .ri8 op dst src => some (emitRI8 op dst src)
  | .ri16 op dst src => some (emitRI16 op dst src)
  | .ri32 op dst src => some (emitRI32 op dst src)
  | .rm op w dst src => emitRM op w dst src
  | .mr op w dst src => some (emitMR op w dst src)
  | .mi8 op dst src => some (emitMI8 op dst src)
  | .mi16 op dst src => emitMI16 op dst src
  | .mi32 op dst src => some (emitMI32 op dst src)
  | .ret => some [0xC3]

/-- The loop of `Compile`, cpu/amd64/cpu.go:16-19. -/
def emitAll : List Call → Option (List Byte)
  | [] => some []
  | c :: cs => match emit c, emitAll cs with
    | some a, some b => some (a ++ b)
    | _, _ => none

end Verif.Amd64
