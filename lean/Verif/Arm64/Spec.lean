/-
What the Arm Architecture Reference Manual (DDI 0487) says, written independently of the assembler: the bit diagrams of the instructions,
left (bit 31) to right (bit 0), and the pseudo-code `DecodeBitMasks`. `call` says which call of the Go API asks for an instruction.
-/
import Verif.Arm64.Model
namespace Verif.Arm64.Spec

open Verif.Arm64 (Instr)

/-! ### Logical immediates -/

/-- `HighestSetBit` of the manual; `none` is -1. -/
def highestSetBit {w : Nat} (x : BitVec w) : Option Nat := (List.range w).reverse.find? fun i => x.getLsbD i

/-- `DecodeBitMasks(N, imms, immr, TRUE, 64)`, the part that computes `wmask`; `none` is UNDEFINED. -/
def decodeBitMasks (N : BitVec 1) (immr imms : BitVec 6) : Option (BitVec 64) :=
  match highestSetBit (N ++ ~~~imms) with
  | none => none
  | some 0 => none
  | some len =>
    let esize := 2 ^ len
    let S := imms.toNat % esize
    let R := immr.toNat % esize
    if S = esize - 1 then none
    else some (((((BitVec.ofNat esize (2 ^ (S + 1) - 1)).rotateRight R).replicate (64 / esize))).setWidth 64)

/-- The immediates that `AND` can hold. -/
def IsLogicalImmediate (v : BitVec 64) : Prop := ∃ N immr imms, decodeBitMasks N immr imms = some v

/-! ### Instructions -/

/-- The address translation operations. -/
inductive ATOp where
  | s1e1r | s1e1w | s1e0r | s1e0w | s1e1rp | s1e1wp | s1e1a | s1e2r | s1e2w | s12e1r | s12e1w | s12e0r | s12e0w | s1e2a | s1e3r | s1e3w | s1e3a
deriving DecidableEq

/-- `op1` of the operation. -/
def ATOp.op1 : ATOp → BitVec 3
  | .s1e1r | .s1e1w | .s1e0r | .s1e0w | .s1e1rp | .s1e1wp | .s1e1a => 0b000
  | .s1e2r | .s1e2w | .s12e1r | .s12e1w | .s12e0r | .s12e0w | .s1e2a => 0b100
  | .s1e3r | .s1e3w | .s1e3a => 0b110
/-- `CRm` of the operation. -/
def ATOp.crm : ATOp → BitVec 4
  | .s1e1rp | .s1e1wp | .s1e1a | .s1e2a | .s1e3a => 0b1001
  | _ => 0b1000
/-- `op2` of the operation. -/
def ATOp.op2 : ATOp → BitVec 3
  | .s1e1r | .s1e1rp | .s1e2r | .s1e3r => 0b000
  | .s1e1w | .s1e1wp | .s1e2w | .s1e3w => 0b001
  | .s1e0r | .s1e1a | .s1e2a | .s1e3a => 0b010
  | .s1e0w => 0b011
  | .s12e1r => 0b100
  | .s12e1w => 0b101
  | .s12e0r => 0b110
  | .s12e0w => 0b111

/-- The architectural instructions, with operands of exactly the width of their fields. -/
inductive A where
  | abs (d n : BitVec 5)
  | adc (d n m : BitVec 5)
  | adcs (d n m : BitVec 5)
  | addExt (d n m : BitVec 5) (option imm3 : BitVec 3)
  | addImm (d n : BitVec 5) (imm12 : BitVec 12)
  | addSh (d n m : BitVec 5) (shift : BitVec 2) (imm6 : BitVec 6)
  | addg (d n : BitVec 5) (uimm6 : BitVec 6) (uimm4 : BitVec 4)
  | addpt (d n m : BitVec 5) (imm3 : BitVec 3)
  | addsExt (d n m : BitVec 5) (option imm3 : BitVec 3)
  | addsImm (d n : BitVec 5) (imm12 : BitVec 12)
  | addsSh (d n m : BitVec 5) (shift : BitVec 2) (imm6 : BitVec 6)
  | adr (d : BitVec 5) (imm : BitVec 21)
  | adrp (d : BitVec 5) (imm : BitVec 21)
  | andSh (d n m : BitVec 5) (shift : BitVec 2) (imm6 : BitVec 6)
  | andsSh (d n m : BitVec 5) (shift : BitVec 2) (imm6 : BitVec 6)
  | apas (t : BitVec 5)
  | asrImm (d n : BitVec 5) (shift : BitVec 6)
  | asrv (d n m : BitVec 5)
  | at_ (t : BitVec 5) (op : ATOp)
  | autda (d n : BitVec 5)
  | autdza (d : BitVec 5)
  | autdb (d n : BitVec 5)
  | autdzb (d : BitVec 5)
  | autia (d n : BitVec 5)
  | autiza (d : BitVec 5)
  | autiaz | autiasp | autia1716 | autia171615
  | autiasppc (imm16 : BitVec 16)
  | autiasppcr (n : BitVec 5)
  | autib (d n : BitVec 5)
  | autizb (d : BitVec 5)
  | autibz | autib1716 | autibsp | autib171615
  | autibsppc (imm16 : BitVec 16)
  | autibsppcr (n : BitVec 5)
  | axflag
  | cmp (n m : BitVec 5) (shift : BitVec 2) (imm6 : BitVec 6)
  | cset (d : BitVec 5) (invcond : BitVec 4)
  | ret (n : BitVec 5)
deriving DecidableEq

/-- The bit diagrams of the manual, for the 64-bit variants. -/
def A.diagram : A → BitVec 32
  | .abs d n => 1#1 ++ 1#1 ++ 0#1 ++ 0b11010110#8 ++ 0b00000#5 ++ 0b001000#6 ++ n ++ d
  | .adc d n m => 1#1 ++ 0#1 ++ 0#1 ++ 0b11010000#8 ++ m ++ 0b000000#6 ++ n ++ d
  | .adcs d n m => 1#1 ++ 0#1 ++ 1#1 ++ 0b11010000#8 ++ m ++ 0b000000#6 ++ n ++ d
  | .addExt d n m o i => 1#1 ++ 0#1 ++ 0#1 ++ 0b01011#5 ++ 0b00#2 ++ 1#1 ++ m ++ o ++ i ++ n ++ d
  | .addImm d n i => 1#1 ++ 0#1 ++ 0#1 ++ 0b100010#6 ++ 0#1 ++ i ++ n ++ d
  | .addSh d n m s i => 1#1 ++ 0#1 ++ 0#1 ++ 0b01011#5 ++ s ++ 0#1 ++ m ++ i ++ n ++ d
  | .addg d n u6 u4 => 1#1 ++ 0#1 ++ 0#1 ++ 0b100011#6 ++ 0#1 ++ u6 ++ 0b00#2 ++ u4 ++ n ++ d
  | .addpt d n m i => 1#1 ++ 0#1 ++ 0#1 ++ 0b11010000#8 ++ m ++ 0b001#3 ++ i ++ n ++ d
  | .addsExt d n m o i => 1#1 ++ 0#1 ++ 1#1 ++ 0b01011#5 ++ 0b00#2 ++ 1#1 ++ m ++ o ++ i ++ n ++ d
  | .addsImm d n i => 1#1 ++ 0#1 ++ 1#1 ++ 0b100010#6 ++ 0#1 ++ i ++ n ++ d
  | .addsSh d n m s i => 1#1 ++ 0#1 ++ 1#1 ++ 0b01011#5 ++ s ++ 0#1 ++ m ++ i ++ n ++ d
  | .adr d i => 0#1 ++ i.extractLsb' 0 2 ++ 0b10000#5 ++ i.extractLsb' 2 19 ++ d
  | .adrp d i => 1#1 ++ i.extractLsb' 0 2 ++ 0b10000#5 ++ i.extractLsb' 2 19 ++ d
  | .andSh d n m s i => 1#1 ++ 0b00#2 ++ 0b01010#5 ++ s ++ 0#1 ++ m ++ i ++ n ++ d
  | .andsSh d n m s i => 1#1 ++ 0b11#2 ++ 0b01010#5 ++ s ++ 0#1 ++ m ++ i ++ n ++ d
  | .apas t => 0b1101010100#10 ++ 0#1 ++ 0b01#2 ++ 0b110#3 ++ 0b0111#4 ++ 0b0000#4 ++ 0b000#3 ++ t
  | .asrImm d n s => 1#1 ++ 0b00#2 ++ 0b100110#6 ++ 1#1 ++ s ++ 0b111111#6 ++ n ++ d
  | .asrv d n m => 1#1 ++ 0#1 ++ 0#1 ++ 0b11010110#8 ++ m ++ 0b0010#4 ++ 0b10#2 ++ n ++ d
  | .at_ t op => 0b1101010100#10 ++ 0#1 ++ 0b01#2 ++ op.op1 ++ 0b0111#4 ++ op.crm ++ op.op2 ++ t
  | .autda d n => 0b1101101011000001#16 ++ 0b00#2 ++ 0#1 ++ 0b110#3 ++ n ++ d
  | .autdza d => 0b1101101011000001#16 ++ 0b00#2 ++ 1#1 ++ 0b110#3 ++ 0b11111#5 ++ d
  | .autdb d n => 0b1101101011000001#16 ++ 0b00#2 ++ 0#1 ++ 0b111#3 ++ n ++ d
  | .autdzb d => 0b1101101011000001#16 ++ 0b00#2 ++ 1#1 ++ 0b111#3 ++ 0b11111#5 ++ d
  | .autia d n => 0b1101101011000001#16 ++ 0b00#2 ++ 0#1 ++ 0b100#3 ++ n ++ d
  | .autiza d => 0b1101101011000001#16 ++ 0b00#2 ++ 1#1 ++ 0b100#3 ++ 0b11111#5 ++ d
  | .autib d n => 0b1101101011000001#16 ++ 0b00#2 ++ 0#1 ++ 0b101#3 ++ n ++ d
  | .autizb d => 0b1101101011000001#16 ++ 0b00#2 ++ 1#1 ++ 0b101#3 ++ 0b11111#5 ++ d
  | .autiaz => 0b11010101000000110010#20 ++ 0b0011#4 ++ 0b100#3 ++ 0b11111#5
  | .autiasp => 0b11010101000000110010#20 ++ 0b0011#4 ++ 0b101#3 ++ 0b11111#5
  | .autibz => 0b11010101000000110010#20 ++ 0b0011#4 ++ 0b110#3 ++ 0b11111#5
  | .autibsp => 0b11010101000000110010#20 ++ 0b0011#4 ++ 0b111#3 ++ 0b11111#5
  | .autia1716 => 0b11010101000000110010#20 ++ 0b0001#4 ++ 0b100#3 ++ 0b11111#5
  | .autib1716 => 0b11010101000000110010#20 ++ 0b0001#4 ++ 0b110#3 ++ 0b11111#5
  | .autia171615 => 0b1101101011000001#16 ++ 0b101110#6 ++ 0b11111#5 ++ 0b11110#5
  | .autib171615 => 0b1101101011000001#16 ++ 0b101111#6 ++ 0b11111#5 ++ 0b11110#5
  | .autiasppcr n => 0b1101101011000001#16 ++ 0b100100#6 ++ n ++ 0b11110#5
  | .autibsppcr n => 0b1101101011000001#16 ++ 0b100101#6 ++ n ++ 0b11110#5
  | .autiasppc i => 0b11110011100#11 ++ i ++ 0b11111#5
  | .autibsppc i => 0b11110011101#11 ++ i ++ 0b11111#5
  | .axflag => 0b1101010100000#13 ++ 0b000#3 ++ 0b0100#4 ++ 0b0000#4 ++ 0b010#3 ++ 0b11111#5
  | .cmp n m s i => 1#1 ++ 1#1 ++ 1#1 ++ 0b01011#5 ++ s ++ 0#1 ++ m ++ i ++ n ++ 0b11111#5
  | .cset d c => 1#1 ++ 0#1 ++ 0#1 ++ 0b11010100#8 ++ 0b11111#5 ++ c ++ 0#1 ++ 1#1 ++ 0b11111#5 ++ d
  | .ret n => 0b1101011#7 ++ 0#1 ++ 0#1 ++ 0b10#2 ++ 0b11111#5 ++ 0b0000#4 ++ 0#1 ++ 0#1 ++ n ++ 0b00000#5

/-- The diagram of `AND (immediate)`, `opc` = 00, and `ANDS (immediate)`, `opc` = 11. -/
def andDiagram (opc : BitVec 2) (N : BitVec 1) (immr imms : BitVec 6) (n d : BitVec 5) : BitVec 32 :=
  1#1 ++ opc ++ 0b100100#6 ++ N ++ immr ++ imms ++ n ++ d

/-- The Go value of a register operand. -/
def r (x : BitVec 5) : BitVec 8 := x.setWidth 8

/-- The arguments of `API.AT` that name an operation: `Stage1` is 1, `Stage1|Stage2` is 3; read 1, write 0, authentication 2, alignment 4. -/
def ATOp.args : ATOp → BitVec 8 × BitVec 8 × BitVec 8
  | .s1e1r => (1, 1, 1)
  | .s1e1w => (1, 1, 0)
  | .s1e0r => (1, 0, 1)
  | .s1e0w => (1, 0, 0)
  | .s1e1rp => (1, 1, 3)
  | .s1e1wp => (1, 1, 2)
  | .s1e1a => (1, 1, 4)
  | .s1e2r => (1, 2, 1)
  | .s1e2w => (1, 2, 0)
  | .s12e1r => (3, 1, 1)
  | .s12e1w => (3, 1, 0)
  | .s12e0r => (3, 0, 1)
  | .s12e0w => (3, 0, 0)
  | .s1e2a => (1, 2, 4)
  | .s1e3r => (1, 3, 1)
  | .s1e3w => (1, 3, 0)
  | .s1e3a => (1, 3, 4)

/-- The call of the Go API that asks for the instruction. -/
def A.call : A → Instr
  | .abs d n => .abs (r d) (r n)
  | .adc d n m => .adc (r d) (r n) (r m)
  | .adcs d n m => .adcs (r d) (r n) (r m)
  | .addExt d n m o i => .addExtended (r d) (r n) (r m) (o.setWidth 8) (i.setWidth 8)
  | .addImm d n i => .addImmediate (r d) (r n) (i.setWidth 16)
  | .addSh d n m s i => .addShifted (r d) (r n) (r m) (s.setWidth 8) (i.setWidth 8)
  | .addg d n u6 u4 => .addg (r d) (r n) (u6.setWidth 8) (u4.setWidth 8)
  | .addpt d n m i => .addpt (r d) (r n) (r m) (i.setWidth 8)
  | .addsExt d n m o i => .addsExtended (r d) (r n) (r m) (o.setWidth 8) (i.setWidth 8)
  | .addsImm d n i => .addsImmediate (r d) (r n) (i.setWidth 16)
  | .addsSh d n m s i => .addsShifted (r d) (r n) (r m) (s.setWidth 8) (i.setWidth 8)
  | .adr d i => .adr (r d) (i.signExtend 32)
  | .adrp d i => .adrp (r d) (i.signExtend 32)
  | .andSh d n m s i => .andShifted (r d) (r n) (r m) (s.setWidth 8) (i.setWidth 8)
  | .andsSh d n m s i => .andsShifted (r d) (r n) (r m) (s.setWidth 8) (i.setWidth 8)
  | .apas t => .apas (r t)
  | .asrImm d n s => .asrImmediate (r d) (r n) (s.setWidth 8)
  | .asrv d n m => .asrRegister (r d) (r n) (r m)
  | .at_ t op => .at_ (r t) op.args.1 op.args.2.1 op.args.2.2
  | .autda d n => .autda (r d) (r n)
  | .autdza d => .autdza (r d)
  | .autdb d n => .autdb (r d) (r n)
  | .autdzb d => .autdzb (r d)
  | .autia d n => .autia (r d) (r n)
  | .autiza d => .autiza (r d)
  | .autib d n => .autib (r d) (r n)
  | .autizb d => .autizb (r d)
  | .autiaz => .autiaz
  | .autiasp => .autiasp
  | .autibz => .autibz
  | .autibsp => .autibsp
  | .autia1716 => .autia1716
  | .autib1716 => .autib1716
  | .autia171615 => .autia171615
  | .autib171615 => .autib171615
  | .autiasppcr n => .autiasppcr (r n)
  | .autibsppcr n => .autibsppcr (r n)
  | .autiasppc i => .autiasppc i
  | .autibsppc i => .autibsppc i
  | .axflag => .axflag
  | .cmp n m s i => .cmps (r n) (r m) (s.setWidth 8) (i.setWidth 8)
  | .cset d c => .cset (r d) (c.setWidth 8)
  | .ret n => .ret (r n)

/-- The instructions that the assembler gets wrong, see the `_fails` theorems. -/
def A.broken : A → Bool
  | .abs .. | .addg .. | .addpt .. | .autdza .. | .autdzb .. | .autiza .. | .autia1716 | .autibz | .autib1716 | .autibsp | .autiasppc ..
  | .autibsppc .. | .cmp .. => true
  | .at_ _ op => op == .s1e1wp
  | _ => false

/-- The processor's little-endian instruction fetch. -/
def fetch : List (BitVec 8) → Option (List (BitVec 32))
  | [] => some []
  | b0 :: b1 :: b2 :: b3 :: rest => (fetch rest).map ((b3 ++ b2 ++ b1 ++ b0) :: ·)
  | _ => none

end Verif.Arm64.Spec
