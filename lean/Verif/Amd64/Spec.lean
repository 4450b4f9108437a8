/-
The part of the Intel/AMD instruction format (64-bit mode) that concerns the ALU instructions, as a decoder written from the manuals: operand-size and REX
prefixes, the opcode map 00-3F, group 1 (80, 81, 83), ModRM with mod 00 and 11, SIB and RIP-relative addresses.
-/
import Verif.Amd64.Model
namespace Verif.Amd64.Spec

open Verif.Amd64 (Byte Width Op Call)

/-- The eight ALU operations in the order of the opcode map. -/
inductive Alu where
  | add | or | adc | sbb | and | sub | xor | cmp
deriving DecidableEq

/-- Operands. Byte registers 4 to 7 are AH, CH, DH and BH when there is no REX prefix, and SPL, BPL, SIL, DIL when there is one (`low8`).
`mem n` is the memory at the address in the 64-bit register `n`. -/
inductive Operand where
  | reg (w : Width) (n : Nat)
  | low8 (n : Nat)
  | mem (base : Nat)
  | sib (base index scale : Nat)
  | rip (disp : BitVec 32)
  | imm (v : BitVec 64)
deriving DecidableEq

inductive Instr where
  | alu (op : Alu) (w : Width) (dst src : Operand)
  | ret
deriving DecidableEq

/-- The operation of a 3-bit field. -/
def aluOf (n : Nat) : Alu :=
  match n with
  | 0 => .add | 1 => .or | 2 => .adc | 3 => .sbb | 4 => .and | 5 => .sub | 6 => .xor | _ => .cmp

/-- The prefixes of an instruction: operand size, and REX with its bits W, R, X and B. -/
structure Prefixes where
  opsize : Bool
  rex : Option (Bool × Bool × Bool × Bool)

/-- Prefixes come in any order, but a REX prefix counts only directly before the opcode. -/
def prefixes (opsize : Bool) : List Byte → Prefixes × List Byte
  | [] => (⟨opsize, none⟩, [])
  | b :: rest =>
    if b = 0x66 then prefixes true rest
    else if b.toNat / 16 = 4 then
      if rest.head? = some 0x66 then prefixes opsize rest else (⟨opsize, some (b.getLsbD 3, b.getLsbD 2, b.getLsbD 1, b.getLsbD 0)⟩, rest)
    else (⟨opsize, none⟩, b :: rest)

def Prefixes.W (p : Prefixes) : Bool := match p.rex with | none => false | some (w, _, _, _) => w
def Prefixes.R (p : Prefixes) : Nat := match p.rex with | some (_, true, _, _) => 8 | _ => 0
def Prefixes.X (p : Prefixes) : Nat := match p.rex with | some (_, _, true, _) => 8 | _ => 0
def Prefixes.B (p : Prefixes) : Nat := match p.rex with | some (_, _, _, true) => 8 | _ => 0

/-- The operand size of an instruction that is not a byte instruction. -/
def Prefixes.width (p : Prefixes) : Width := if p.W then .q else if p.opsize then .w else .d

/-- A register operand. -/
def Prefixes.register (p : Prefixes) (w : Width) (n : Nat) : Operand :=
  if w = .b ∧ p.rex.isSome ∧ 4 ≤ n ∧ n < 8 then .low8 n else .reg w n

/-- Sixteen bits, least significant byte first. -/
def read16 : List Byte → Option (BitVec 16 × List Byte)
  | a :: b :: rest => some (b ++ a, rest)
  | _ => none

/-- Thirty-two bits, least significant byte first. -/
def read32 : List Byte → Option (BitVec 32 × List Byte)
  | a :: b :: c :: d :: rest => some (d ++ c ++ b ++ a, rest)
  | _ => none

/-- The operand of a ModRM byte's `rm` field, for `mod` 00 and 11. -/
def rmOperand (p : Prefixes) (w : Width) (mod rm : Nat) (rest : List Byte) : Option (Operand × List Byte) :=
  if mod = 3 then some (p.register w (rm + p.B), rest)
  else if mod = 0 then
    if rm = 4 then
      match rest with
      | [] => none
      | s :: rest => if s.toNat % 8 = 5 then none else some (.sib (s.toNat % 8 + p.B) (s.toNat / 8 % 8 + p.X) (s.toNat / 64), rest)
    else if rm = 5 then (read32 rest).map fun (d, rest) => (.rip d, rest)
    else some (.mem (rm + p.B), rest)
  else none

/-- An immediate of the instruction's size; for 64-bit instructions it is 32 bits, sign-extended. -/
def immediate (w : Width) (rest : List Byte) : Option (Operand × List Byte) :=
  match w with
  | .b => match rest with | [] => none | b :: rest => some (.imm (b.setWidth 64), rest)
  | .w => (read16 rest).map fun (v, rest) => (.imm (v.setWidth 64), rest)
  | .d => (read32 rest).map fun (v, rest) => (.imm (v.setWidth 64), rest)
  | .q => (read32 rest).map fun (v, rest) => (.imm (v.signExtend 64), rest)

/-- An instruction with a ModRM byte, a register operand and the other one; `toReg` is the direction. -/
def withModRM (p : Prefixes) (op : Alu) (w : Width) (toReg : Bool) : List Byte → Option (Instr × List Byte)
  | [] => none
  | m :: rest => (rmOperand p w (m.toNat / 64) (m.toNat % 8) rest).map fun (o, rest) =>
    if toReg then (.alu op w (p.register w (m.toNat / 8 % 8 + p.R)) o, rest) else (.alu op w o (p.register w (m.toNat / 8 % 8 + p.R)), rest)

/-- An instruction of group 1: the operation is in the ModRM byte, and an immediate follows the operand. -/
def group1 (p : Prefixes) (w : Width) (short : Bool) : List Byte → Option (Instr × List Byte)
  | [] => none
  | m :: rest => (rmOperand p w (m.toNat / 64) (m.toNat % 8) rest).bind fun (o, rest) =>
    if short then
      match rest with
      | [] => none
      | b :: rest => some (.alu (aluOf (m.toNat / 8 % 8)) w o (.imm (b.signExtend 64)), rest)
    else (immediate w rest).map fun (i, rest) => (.alu (aluOf (m.toNat / 8 % 8)) w o i, rest)

/-- The instruction after the prefixes. -/
def opcode (p : Prefixes) : List Byte → Option (Instr × List Byte)
  | [] => none
  | b :: rest =>
    if b = 0xC3 then some (.ret, rest)
    else if b = 0x80 then group1 p .b false rest
    else if b = 0x81 then group1 p p.width false rest
    else if b = 0x83 then group1 p p.width true rest
    else if b.toNat < 0x40 then
      match b.toNat % 8 with
      | 0 => withModRM p (aluOf (b.toNat / 8)) .b false rest
      | 1 => withModRM p (aluOf (b.toNat / 8)) p.width false rest
      | 2 => withModRM p (aluOf (b.toNat / 8)) .b true rest
      | 3 => withModRM p (aluOf (b.toNat / 8)) p.width true rest
      | 4 => (immediate .b rest).map fun (i, rest) => (.alu (aluOf (b.toNat / 8)) .b (.reg .b 0) i, rest)
      | 5 => (immediate p.width rest).map fun (i, rest) => (.alu (aluOf (b.toNat / 8)) p.width (.reg p.width 0) i, rest)
      | _ => none
    else none

/-- The first instruction of the bytes, and the bytes after it. -/
def decode (bs : List Byte) : Option (Instr × List Byte) := opcode (prefixes false bs).1 (prefixes false bs).2

/-- What the caller asked for. -/
def aluOp : Op → Alu
  | .add => .add | .or => .or | .adc => .adc | .and => .and | .xor => .xor

/-- What the caller asked for: the destination first. -/
def meaning : Call → Instr
  | .rr op w d s => .alu (aluOp op) w (.reg w d.toNat) (.reg w s.toNat)
  | .ri8 op d v => .alu (aluOp op) .b (.reg .b d.toNat) (.imm (v.setWidth 64))
  | .ri16 op d v => .alu (aluOp op) .w (.reg .w d.toNat) (.imm (v.setWidth 64))
  | .ri32 op d v => .alu (aluOp op) .d (.reg .d d.toNat) (.imm (v.setWidth 64))
  | .rm op w d s => .alu (aluOp op) w (.reg w d.toNat) (.mem s.toNat)
  | .mr op w d s => .alu (aluOp op) w (.mem d.toNat) (.reg w s.toNat)
  | .mi8 op d v => .alu (aluOp op) .b (.mem d.toNat) (.imm (v.setWidth 64))
  | .mi16 op d v => .alu (aluOp op) .w (.mem d.toNat) (.imm (v.setWidth 64))
  | .mi32 op d v => .alu (aluOp op) .d (.mem d.toNat) (.imm (v.setWidth 64))
  | .ret => .ret

/-- The registers of the call are among the eight that the package names. -/
def named : Call → Bool
  | .rr _ _ d s | .rm _ _ d s | .mr _ _ d s => d.toNat < 8 && s.toNat < 8
  | .ri8 _ d _ | .ri16 _ d _ | .ri32 _ d _ | .mi8 _ d _ | .mi16 _ d _ | .mi32 _ d _ => d.toNat < 8
  | .ret => true

/-- The calls that a function of the package makes: there is no `MemoryAdd`. -/
def exported : Call → Bool
  | .mr .add .. | .mi8 .add .. | .mi16 .add .. | .mi32 .add .. => false
  | _ => true

/-- A register that can be used as a plain base: not RSP (a SIB byte would follow) and not RBP (which means RIP plus a displacement). -/
def plainBase (n : Byte) : Bool := n != 4 && n != 5

/-- The calls that the assembler gets right. -/
def right : Call → Bool
  | .rr .adc _ d s => d == s
  | .rr _ _ _ _ => true
  | .ri32 .adc d _ => d != 0
  | .ri8 .. | .ri16 .. | .ri32 .. => true
  | .rm .adc _ _ s => plainBase s
  | .rm _ _ _ _ => false
  | .mr .adc _ d _ => plainBase d
  | .mr .add _ _ _ => false
  | .mr _ _ d s => d == s && plainBase d
  | .mi16 .adc _ _ | .mi32 .adc _ _ | .mi16 .add _ _ | .mi32 .add _ _ => false
  | .mi8 _ d _ | .mi16 _ d _ | .mi32 _ d _ => plainBase d
  | .ret => true

/-- The bytes that the call emits are one instruction, the one that was asked for, whatever follows. -/
def Correct (c : Call) : Prop := ∃ bs, Verif.Amd64.emit c = some bs ∧ ∀ rest, decode (bs ++ rest) = some (meaning c, rest)

end Verif.Amd64.Spec
