/-
Model of the ARM64 assembler: cpu/arm64/asm.go and cpu/arm64/bit.go.

Go's `uint8`, `uint16`, `uint32`, `uint64` and the signed types of the same widths are bit vectors; `<`, `>>` and so on are chosen as
the Go type says. The writer never fails. Memory mapping (`Compile`, cpu/arm64/cpu.go) is not modelled.
-/
namespace Verif.Arm64

/-- A register number (`Register`, a `uint8`; cpu/arm64/asm.go:200-208). -/
abbrev Reg := BitVec 8

/-- `rd`, cpu/arm64/asm.go:200-202. -/
def rd (r : Reg) : BitVec 32 := (r &&& 0b11111).setWidth 32 <<< 0
/-- `rn`, cpu/arm64/asm.go:203-205. -/
def rn (r : Reg) : BitVec 32 := (r &&& 0b11111).setWidth 32 <<< 5
/-- `rm`, cpu/arm64/asm.go:206-208. -/
def rm (r : Reg) : BitVec 32 := (r &&& 0b11111).setWidth 32 <<< 16

/-- `imm2` of an unsigned byte, cpu/arm64/asm.go:217-222. -/
def imm2 (v : BitVec 8) : BitVec 32 := (v &&& 0b11).setWidth 32
/-- `imm3` of an unsigned byte, cpu/arm64/asm.go:223-228. -/
def imm3 (v : BitVec 8) : BitVec 32 := (v &&& 0b111).setWidth 32
/-- `imm4` of an unsigned byte, cpu/arm64/asm.go:229-234. -/
def imm4 (v : BitVec 8) : BitVec 32 := (v &&& 0b1111).setWidth 32
/-- `imm4` of a signed byte, cpu/arm64/asm.go:229-234. -/
def imm4s (v : BitVec 8) : BitVec 32 := if v.slt 0 then (v &&& 0b1111).signExtend 32 ||| (1 <<< 4) else (v &&& 0b1111).signExtend 32
/-- `imm6` of an unsigned byte, cpu/arm64/asm.go:235-240. -/
def imm6 (v : BitVec 8) : BitVec 32 := (v &&& 0b111111).setWidth 32
/-- `imm6` of a signed byte, cpu/arm64/asm.go:235-240. -/
def imm6s (v : BitVec 8) : BitVec 32 := if v.slt 0 then (v &&& 0b111111).signExtend 32 ||| (1 <<< 6) else (v &&& 0b111111).signExtend 32
/-- `imm12` of an `int16`, cpu/arm64/asm.go:241-246. -/
def imm12s (v : BitVec 16) : BitVec 32 := if v.slt 0 then (v &&& 0xFFF).signExtend 32 ||| (1 <<< 12) else (v &&& 0xFFF).signExtend 32
/-- `imm12` of a `uint16`, cpu/arm64/asm.go:241-246. -/
def imm12 (v : BitVec 16) : BitVec 32 := (v &&& 0xFFF).setWidth 32
/-- `immhi`, cpu/arm64/asm.go:254-259. -/
def immhi (v : BitVec 32) : BitVec 32 := if v.slt 0 then ((v &&& 0b011111111111111111100) ||| (1 <<< 20)) <<< 3 else (v &&& 0b111111111111111111100) <<< 3
/-- `immlo`, cpu/arm64/asm.go:260-262. -/
def immlo (v : BitVec 32) : BitVec 32 := (v &&& 0b11) <<< 29
/-- `imm16` of an `int16`, cpu/arm64/asm.go:264-268. -/
def imm16 (v : BitVec 16) : BitVec 32 := v.setWidth 32

/-! ### Bit patterns -/

/-- `isConsecutiveOnes`, cpu/arm64/bit.go:52-54. -/
def isConsecutiveOnes (v : BitVec 64) : Bool := v ≠ 0 && ((v + 1) &&& v) == 0

/-- The loop of `countTrailingOnes`, cpu/arm64/bit.go:63-66; at most 64 rounds. -/
def countOnes : Nat → BitVec 64 → Nat
  | 0, _ => 0
  | n + 1, v => if v &&& 1 == 1 then countOnes n (v >>> 1) + 1 else 0

/-- `countTrailingOnes`, cpu/arm64/bit.go:57-68. -/
def countTrailingOnes (v : BitVec 64) : Nat := countOnes 64 v

/-- The rotation of the block of `S+1` ones, cpu/arm64/bit.go:18-20. -/
def rotated64 (S R : Nat) : BitVec 64 :=
  let w : BitVec 64 := (1 <<< (S + 1)) - 1
  (w >>> R) ||| ((w <<< (64 - R)) &&& 0xFFFFFFFFFFFFFFFF)

/-- The loops for 64-bit elements, cpu/arm64/bit.go:16-25: the first `S` and `R` that fit. -/
def find64 (imm : BitVec 64) : Option (Nat × Nat) :=
  (List.range 64).findSome? fun S => (List.range 64).findSome? fun R => if rotated64 S R == imm then some (S, R) else none

/-- `(1 << E) - 1`, cpu/arm64/bit.go:29-37. -/
def onesE (E : Nat) : BitVec 64 := (1 <<< E) - 1

/-- The loop that repeats the pattern, cpu/arm64/bit.go:30-33. -/
def repeated (E : Nat) (pattern : BitVec 64) : BitVec 64 := (List.range (64 / E)).foldl (fun acc i => acc ||| (pattern <<< (i * E))) 0

/-- The rotation within an element, cpu/arm64/bit.go:37. -/
def rotatedE (E R : Nat) (pattern : BitVec 64) : BitVec 64 := (pattern >>> R) ||| ((pattern <<< (E - R)) &&& onesE E)

/-- The loop over the rotations of an element, cpu/arm64/bit.go:36-44: the first that is a block of ones. -/
def findE (E : Nat) (pattern : BitVec 64) : Option (Nat × Nat) :=
  (List.range E).findSome? fun R =>
    if isConsecutiveOnes (rotatedE E R pattern) && countTrailingOnes (rotatedE E R pattern) - 1 < E then
      some (countTrailingOnes (rotatedE E R pattern) - 1, R)
    else none

/-- One round of the loop over the element sizes, cpu/arm64/bit.go:14-47: `n`, `immr` and `imms`. -/
def encodeE (imm : BitVec 64) (E : Nat) : Option (Nat × Nat × Nat) :=
  if E == 64 then (find64 imm).map fun p => (1, p.2, p.1)
  else if repeated E (imm &&& onesE E) == imm then (findE E (imm &&& onesE E)).map fun p => (0, p.2, p.1)
  else none

/-- `BitPattern.encode`, cpu/arm64/bit.go:6-49; `none` is an error. -/
def encode (imm : BitVec 64) : Option (Nat × Nat × Nat) :=
  if imm == 0 || imm == 0xFFFFFFFFFFFFFFFF then none else [2, 4, 8, 16, 32, 64].findSome? (encodeE imm)

/-! ### Instructions -/

/-- The instructions of the API that are modelled, cpu/arm64/api.go:18-67. -/
inductive Instr where
  | abs (dst src : Reg)
  | adc (dst a b : Reg)
  | adcs (dst a b : Reg)
  | addExtended (dst a b : Reg) (extension amount : BitVec 8)
  | addImmediate (dst a : Reg) (val : BitVec 16)
  | addShifted (dst a b : Reg) (shift amount : BitVec 8)
  | addg (dst src : Reg) (offset tag : BitVec 8)
  | addpt (dst ptr offset : Reg) (amount : BitVec 8)
  | addsExtended (dst a b : Reg) (extension amount : BitVec 8)
  | addsImmediate (dst a : Reg) (val : BitVec 16)
  | addsShifted (dst a b : Reg) (shift amount : BitVec 8)
  | adr (dst : Reg) (offset : BitVec 32)
  | adrp (dst : Reg) (offset : BitVec 32)
  | andImmediate (dst src : Reg) (val : BitVec 64)
  | andShifted (dst a b : Reg) (shift amount : BitVec 8)
  | andsImmediate (dst src : Reg) (val : BitVec 64)
  | andsShifted (dst a b : Reg) (shift amount : BitVec 8)
  | apas (src : Reg)
  | asrImmediate (dst src : Reg) (amount : BitVec 8)
  | asrRegister (dst a b : Reg)
  | at_ (ptr : Reg) (stage level check : BitVec 8)
  | autda (dst key : Reg)
  | autdza (dst : Reg)
  | autdb (dst key : Reg)
  | autdzb (dst : Reg)
  | autia (dst key : Reg)
  | autiza (dst : Reg)
  | autiaz | autiasp | autia1716 | autia171615
  | autiasppc (offset : BitVec 16)
  | autiasppcr (key : Reg)
  | autib (dst key : Reg)
  | autizb (dst : Reg)
  | autibz | autib1716 | autibsp | autib171615
  | autibsppc (offset : BitVec 16)
  | autibsppcr (key : Reg)
  | axflag
  | cmps (src1 src2 : Reg) (shift amount : BitVec 8)
  | cset (dst : Reg) (condition : BitVec 8)
  | ret (lnk : Reg)

/-- The switch of `AT`, cpu/arm64/asm.go:95-131: `op1`, `CRm` and `op2`. Stage1 is 1, Stage1|Stage2 is 3; read is 1, write 0,
authentication 2, alignment 4 (cpu/arm64/api.go:172-186). -/
def atFields (stage level check : BitVec 8) : BitVec 32 × BitVec 32 × BitVec 32 :=
  if stage == 1 && level == 1 && check == 1 then (0, 8, 0)
  else if stage == 1 && level == 1 && check == 0 then (0, 8, 1)
  else if stage == 1 && level == 0 && check == 1 then (0, 8, 2)
  else if stage == 1 && level == 0 && check == 0 then (0, 8, 3)
  else if stage == 1 && level == 1 && (check &&& 2) != 0 && (check &&& 1) != 0 then (0, 9, 0)
  else if stage == 1 && level == 1 && (check &&& 2) != 0 && (check &&& 0) != 0 then (0, 9, 1)
  else if stage == 1 && level == 1 && check == 4 then (0, 9, 2)
  else if stage == 1 && level == 2 && check == 1 then (4, 8, 0)
  else if stage == 1 && level == 2 && check == 0 then (4, 8, 1)
  else if stage == 3 && level == 1 && check == 1 then (4, 8, 4)
  else if stage == 3 && level == 1 && check == 0 then (4, 8, 5)
  else if stage == 3 && level == 0 && check == 1 then (4, 8, 6)
  else if stage == 3 && level == 0 && check == 0 then (4, 8, 7)
  else if stage == 1 && level == 2 && check == 4 then (4, 9, 2)
  else if stage == 1 && level == 3 && check == 1 then (6, 8, 0)
  else if stage == 1 && level == 3 && check == 0 then (6, 8, 1)
  else if stage == 1 && level == 3 && check == 4 then (6, 9, 2)
  else (0, 0, 0)

/-- The immediate forms of `AND` and `ANDS`, cpu/arm64/asm.go:56-62 and 68-74. -/
def andImm (op : BitVec 32) (dst src : Reg) (val : BitVec 64) : Option (BitVec 32) :=
  (encode val).map fun e => op <<< 25 ||| rd dst ||| rn src ||| (BitVec.ofNat 32 e.1) <<< 22 ||| (BitVec.ofNat 32 e.2.1) <<< 16 ||| (BitVec.ofNat 32 e.2.2) <<< 10

/-- The word of each instruction, `assembler.API`, cpu/arm64/asm.go:18-170; `none` is an error. -/
def word : Instr → Option (BitVec 32)
  | .abs dst src => some (0b101101011000000001 <<< 13 ||| rd dst ||| rn src)
  | .adc dst a b => some (0b1001101 <<< 25 ||| rd dst ||| rn a ||| rm b)
  | .adcs dst a b => some (0b1011101 <<< 25 ||| rd dst ||| rn a ||| rm b)
  | .addExtended dst a b ext amount => some (0b10001011001 <<< 21 ||| rd dst ||| rn a ||| rm b ||| imm3 amount <<< 10 ||| imm3 ext <<< 13)
  | .addImmediate dst a val => some (0b10010001 <<< 24 ||| rd dst ||| rn a ||| imm12s val <<< 10)
  | .addShifted dst a b shift amount => some (0b10001011 <<< 24 ||| rd dst ||| rn a ||| imm6 amount <<< 10 ||| imm2 shift <<< 22 ||| rm b)
  | .addg dst src offset tag => some (0b100100011 <<< 22 ||| rd dst ||| rn src ||| imm6s offset <<< 16 ||| imm4s tag <<< 10)
  | .addpt dst ptr offset amount => some (0b1001101 <<< 25 ||| rd dst ||| rn ptr ||| imm3 amount <<< 10 ||| rm offset)
  | .addsExtended dst a b ext amount => some (0b10101011001 <<< 21 ||| rd dst ||| rn a ||| rm b ||| imm3 amount <<< 10 ||| imm3 ext <<< 13)
  | .addsImmediate dst a val => some (0b10110001 <<< 24 ||| rd dst ||| rn a ||| imm12 val <<< 10)
  | .addsShifted dst a b shift amount => some (0b10101011 <<< 24 ||| rd dst ||| rn a ||| imm6 amount <<< 10 ||| imm2 shift <<< 22 ||| rm b)
  | .adr dst offset => some (0b0001 <<< 28 ||| rd dst ||| immlo offset ||| immhi offset)
  | .adrp dst offset => some (0b1001 <<< 28 ||| rd dst ||| immlo offset ||| immhi offset)
  | .andImmediate dst src val => andImm 0b1001001 dst src val
  | .andShifted dst a b shift amount => some (0b1000101 <<< 25 ||| rd dst ||| rn a ||| rm b ||| imm6 amount <<< 10 ||| shift.setWidth 32 <<< 22)
  | .andsImmediate dst src val => andImm 0b1111001 dst src val
  | .andsShifted dst a b shift amount => some (0b1110101 <<< 25 ||| rd dst ||| rn a ||| rm b ||| imm6 amount <<< 10 ||| shift.setWidth 32 <<< 22)
  | .apas src => some (0b11010101000011100111 <<< 12 ||| rd src)
  | .asrImmediate dst src amount => some (0b1001001101000000111111 <<< 10 ||| rd dst ||| rn src ||| imm6 amount <<< 16)
  | .asrRegister dst a b => some (0b100110101100000000101 <<< 11 ||| rd dst ||| rn a ||| rm b)
  | .at_ ptr stage level check =>
    some (0b110101010000100001111 <<< 11 ||| rd ptr ||| (atFields stage level check).1 <<< 16 ||| (atFields stage level check).2.2 <<< 5 |||
      (atFields stage level check).2.1 <<< 8)
  | .autda dst key => some (0b110110101100000100011 <<< 11 ||| rd dst ||| rn key)
  | .autdza dst => some (0b110110101100000100111 <<< 11 ||| rd dst)
  | .autdb dst key => some (0b1101101011000001000111 <<< 10 ||| rd dst ||| rn key)
  | .autdzb dst => some (0b1101101011000001001111 <<< 10 ||| rd dst)
  | .autia dst key => some (0b11011010110000010001 <<< 12 ||| rd dst ||| rn key)
  | .autiza dst => some (0b11011010110000010011 <<< 12 ||| rd dst)
  | .autiaz => some 0b11010101000000110010001110011111
  | .autiasp => some 0b11010101000000110010001110111111
  | .autia1716 => some 0b11010101000000110010001110011111
  | .autia171615 => some 0b11011010110000011011101111111110
  | .autiasppc offset => some (0b111100111000000000000000011111 ||| imm16 offset <<< 5)
  | .autiasppcr key => some (0b11011010110000011001000000011110 ||| rn key)
  | .autib dst key => some (0b1101101011000001000101 <<< 10 ||| rd dst ||| rn key)
  | .autizb dst => some (0b110110101100000100110111111 <<< 5 ||| rd dst)
  | .autibz => some 0b11010101000000110010000111011111
  | .autib1716 => some 0b11010101000000110010001111111111
  | .autibsp => some 0b11010101000000110010001111011111
  | .autib171615 => some 0b11011010110000011011111111111110
  | .autibsppc offset => some (0b111100111010000000000000011111 ||| imm16 offset <<< 5)
  | .autibsppcr key => some (0b11011010110000011001010000011110 ||| rn key)
  | .axflag => some 0b11010101000000000100000001011111
  | .cmps src1 src2 shift amount => some (0b11101011 <<< 24 ||| rn src1 ||| rm src2 ||| imm6 amount <<< 10 ||| shift.setWidth 32 <<< 22)
  | .cset dst condition => some (0b100110101001111100000111111 <<< 5 ||| rd dst ||| imm4 condition <<< 12)
  | .ret lnk => some (0b1101011001011111 <<< 16 ||| rn lnk)

/-- `assembler.write`, cpu/arm64/asm.go:174-179: the bytes of a word, least significant first. -/
def bytesLE (w : BitVec 32) : List (BitVec 8) := [w.setWidth 8, (w >>> 8).setWidth 8, (w >>> 16).setWidth 8, (w >>> 24).setWidth 8]

/-- The bytes written by a sequence of calls; the ones that return an error write nothing
(cpu/arm64/asm.go:174-179). -/
def assemble (is : List Instr) : List (BitVec 8) := is.flatMap fun i => match word i with | none => [] | some w => bytesLE w

end Verif.Arm64
