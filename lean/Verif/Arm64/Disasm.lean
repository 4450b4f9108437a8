/-
A disassembler for the diagrams, used to show that different instructions have different words. Generated from the diagrams of Spec.lean.
-/
import Verif.Arm64.Lemmas
namespace Verif.Arm64
open Spec

/-- Every address translation operation. -/
def atOps : List ATOp := [.s1e1r, .s1e1w, .s1e0r, .s1e0w, .s1e1rp, .s1e1wp, .s1e1a, .s1e2r, .s1e2w, .s12e1r, .s12e1w, .s12e0r, .s12e0w, .s1e2a, .s1e3r, .s1e3w, .s1e3a]

/-- The operation with the given fields. -/
def atOf (o1 : BitVec 3) (cr : BitVec 4) (o2 : BitVec 3) : ATOp := (atOps.find? fun o => o.op1 == o1 && o.crm == cr && o.op2 == o2).getD .s1e1r

theorem atOf_eq (op : ATOp) : atOf op.op1 op.crm op.op2 = op := by cases op <;> rfl

/-- The number of a mnemonic. -/
def kind : A → Fin 43
  | .abs .. => 0
  | .adc .. => 1
  | .adcs .. => 2
  | .addExt .. => 3
  | .addImm .. => 4
  | .addSh .. => 5
  | .addg .. => 6
  | .addpt .. => 7
  | .addsExt .. => 8
  | .addsImm .. => 9
  | .addsSh .. => 10
  | .adr .. => 11
  | .adrp .. => 12
  | .andSh .. => 13
  | .andsSh .. => 14
  | .apas .. => 15
  | .asrImm .. => 16
  | .asrv .. => 17
  | .at_ .. => 18
  | .autda .. => 19
  | .autdza .. => 20
  | .autdb .. => 21
  | .autdzb .. => 22
  | .autia .. => 23
  | .autiza .. => 24
  | .autiaz => 25
  | .autiasp => 26
  | .autia1716 => 27
  | .autia171615 => 28
  | .autiasppc .. => 29
  | .autiasppcr .. => 30
  | .autib .. => 31
  | .autizb .. => 32
  | .autibz => 33
  | .autib1716 => 34
  | .autibsp => 35
  | .autib171615 => 36
  | .autibsppc .. => 37
  | .autibsppcr .. => 38
  | .axflag => 39
  | .cmp .. => 40
  | .cset .. => 41
  | .ret .. => 42

/-- The fixed bits of each mnemonic. -/
def masks : List (BitVec 32) := [0xfffffc00, 0xffe0fc00, 0xffe0fc00, 0xffe00000, 0xffc00000, 0xff200000, 0xffc0c000, 0xffe0e000, 0xffe00000, 0xffc00000, 0xff200000, 0x9f000000, 0x9f000000, 0xff200000, 0xff200000, 0xffffffe0, 0xffc0fc00, 0xffe0fc00, 0xfff8f800, 0xfffffc00, 0xffffffe0, 0xfffffc00, 0xffffffe0, 0xfffffc00, 0xffffffe0, 0xffffffff, 0xffffffff, 0xffffffff, 0xffffffff, 0xffe0001f, 0xfffffc1f, 0xfffffc00, 0xffffffe0, 0xffffffff, 0xffffffff, 0xffffffff, 0xffffffff, 0xffe0001f, 0xfffffc1f, 0xffffffff, 0xff20001f, 0xffff0fe0, 0xfffffc1f]
/-- The values of the fixed bits. -/
def values : List (BitVec 32) := [0xdac02000, 0x9a000000, 0xba000000, 0x8b200000, 0x91000000, 0x8b000000, 0x91800000, 0x9a002000, 0xab200000, 0xb1000000, 0xab000000, 0x10000000, 0x90000000, 0x8a000000, 0xea000000, 0xd50e7000, 0x9340fc00, 0x9ac02800, 0xd5087800, 0xdac11800, 0xdac13be0, 0xdac11c00, 0xdac13fe0, 0xdac11000, 0xdac133e0, 0xd503239f, 0xd50323bf, 0xd503219f, 0xdac1bbfe, 0xf380001f, 0xdac1901e, 0xdac11400, 0xdac137e0, 0xd50323df, 0xd50321df, 0xd50323ff, 0xdac1bffe, 0xf3a0001f, 0xdac1941e, 0xd500405f, 0xeb00001f, 0x9a9f07e0, 0xd65f0000]
def mask (k : Fin 43) : BitVec 32 := masks[k]
def value (k : Fin 43) : BitVec 32 := values[k]

/-- The operands of a word. -/
def parse (k : Nat) (w : BitVec 32) : A :=
  match k with
  | 0 => .abs (w.extractLsb' 0 5) (w.extractLsb' 5 5)
  | 1 => .adc (w.extractLsb' 0 5) (w.extractLsb' 5 5) (w.extractLsb' 16 5)
  | 2 => .adcs (w.extractLsb' 0 5) (w.extractLsb' 5 5) (w.extractLsb' 16 5)
  | 3 => .addExt (w.extractLsb' 0 5) (w.extractLsb' 5 5) (w.extractLsb' 16 5) (w.extractLsb' 13 3) (w.extractLsb' 10 3)
  | 4 => .addImm (w.extractLsb' 0 5) (w.extractLsb' 5 5) (w.extractLsb' 10 12)
  | 5 => .addSh (w.extractLsb' 0 5) (w.extractLsb' 5 5) (w.extractLsb' 16 5) (w.extractLsb' 22 2) (w.extractLsb' 10 6)
  | 6 => .addg (w.extractLsb' 0 5) (w.extractLsb' 5 5) (w.extractLsb' 16 6) (w.extractLsb' 10 4)
  | 7 => .addpt (w.extractLsb' 0 5) (w.extractLsb' 5 5) (w.extractLsb' 16 5) (w.extractLsb' 10 3)
  | 8 => .addsExt (w.extractLsb' 0 5) (w.extractLsb' 5 5) (w.extractLsb' 16 5) (w.extractLsb' 13 3) (w.extractLsb' 10 3)
  | 9 => .addsImm (w.extractLsb' 0 5) (w.extractLsb' 5 5) (w.extractLsb' 10 12)
  | 10 => .addsSh (w.extractLsb' 0 5) (w.extractLsb' 5 5) (w.extractLsb' 16 5) (w.extractLsb' 22 2) (w.extractLsb' 10 6)
  | 11 => .adr (w.extractLsb' 0 5) ((w.extractLsb' 5 19) ++ (w.extractLsb' 29 2))
  | 12 => .adrp (w.extractLsb' 0 5) ((w.extractLsb' 5 19) ++ (w.extractLsb' 29 2))
  | 13 => .andSh (w.extractLsb' 0 5) (w.extractLsb' 5 5) (w.extractLsb' 16 5) (w.extractLsb' 22 2) (w.extractLsb' 10 6)
  | 14 => .andsSh (w.extractLsb' 0 5) (w.extractLsb' 5 5) (w.extractLsb' 16 5) (w.extractLsb' 22 2) (w.extractLsb' 10 6)
  | 15 => .apas (w.extractLsb' 0 5)
  | 16 => .asrImm (w.extractLsb' 0 5) (w.extractLsb' 5 5) (w.extractLsb' 16 6)
  | 17 => .asrv (w.extractLsb' 0 5) (w.extractLsb' 5 5) (w.extractLsb' 16 5)
  | 18 => .at_ (w.extractLsb' 0 5) (atOf (w.extractLsb' 16 3) (w.extractLsb' 8 4) (w.extractLsb' 5 3))
  | 19 => .autda (w.extractLsb' 0 5) (w.extractLsb' 5 5)
  | 20 => .autdza (w.extractLsb' 0 5)
  | 21 => .autdb (w.extractLsb' 0 5) (w.extractLsb' 5 5)
  | 22 => .autdzb (w.extractLsb' 0 5)
  | 23 => .autia (w.extractLsb' 0 5) (w.extractLsb' 5 5)
  | 24 => .autiza (w.extractLsb' 0 5)
  | 25 => .autiaz
  | 26 => .autiasp
  | 27 => .autia1716
  | 28 => .autia171615
  | 29 => .autiasppc (w.extractLsb' 5 16)
  | 30 => .autiasppcr (w.extractLsb' 5 5)
  | 31 => .autib (w.extractLsb' 0 5) (w.extractLsb' 5 5)
  | 32 => .autizb (w.extractLsb' 0 5)
  | 33 => .autibz
  | 34 => .autib1716
  | 35 => .autibsp
  | 36 => .autib171615
  | 37 => .autibsppc (w.extractLsb' 5 16)
  | 38 => .autibsppcr (w.extractLsb' 5 5)
  | 39 => .axflag
  | 40 => .cmp (w.extractLsb' 5 5) (w.extractLsb' 16 5) (w.extractLsb' 22 2) (w.extractLsb' 10 6)
  | 41 => .cset (w.extractLsb' 0 5) (w.extractLsb' 12 4)
  | _ => .ret (w.extractLsb' 5 5)

/-- Compare two operands bit by bit. -/
macro "fieldwise" : tactic => `(tactic| (
  apply BitVec.eq_of_getLsbD_eq
  intro i hi
  simp only [BitVec.getLsbD_extractLsb']
  rw [BitVec.getLsbD_append]
  simp only [BitVec.getLsbD_append, BitVec.getLsbD_extractLsb', BitVec.getLsbD_ofNat]
  interval_cases i <;> simp [-BitVec.getLsbD_eq_getElem, Nat.testBit]))

/-- Compare the fixed bits. -/
macro "maskwise" : tactic => `(tactic| (
  simp only [A.diagram]
  apply BitVec.eq_of_getLsbD_eq
  intro i hi
  simp only [BitVec.getLsbD_and]
  rw [BitVec.getLsbD_append]
  simp only [BitVec.getLsbD_append, BitVec.getLsbD_extractLsb', BitVec.getLsbD_ofNat]
  interval_cases i <;> simp [-BitVec.getLsbD_eq_getElem, Nat.testBit]))

/-- Put an offset together again. -/
macro "fieldwise2" : tactic => `(tactic| (
  apply BitVec.eq_of_getLsbD_eq
  intro i hi
  simp only [BitVec.getLsbD_append, BitVec.getLsbD_extractLsb', BitVec.getLsbD_ofNat]
  interval_cases i <;> simp [-BitVec.getLsbD_eq_getElem, Nat.testBit]))

theorem fixed_abs (x0 : BitVec 5) (x1 : BitVec 5) : (A.abs x0 x1).diagram &&& 0xfffffc00 = 0xdac02000 := by
  maskwise

theorem parse_abs (x0 : BitVec 5) (x1 : BitVec 5) : parse 0 (A.abs x0 x1).diagram = A.abs x0 x1 := by
  simp only [A.diagram]
  show A.abs _ _ = _
  congr 1 <;> fieldwise

theorem fixed_adc (x0 : BitVec 5) (x1 : BitVec 5) (x2 : BitVec 5) : (A.adc x0 x1 x2).diagram &&& 0xffe0fc00 = 0x9a000000 := by
  maskwise

theorem parse_adc (x0 : BitVec 5) (x1 : BitVec 5) (x2 : BitVec 5) : parse 1 (A.adc x0 x1 x2).diagram = A.adc x0 x1 x2 := by
  simp only [A.diagram]
  show A.adc _ _ _ = _
  congr 1 <;> fieldwise

theorem fixed_adcs (x0 : BitVec 5) (x1 : BitVec 5) (x2 : BitVec 5) : (A.adcs x0 x1 x2).diagram &&& 0xffe0fc00 = 0xba000000 := by
  maskwise

theorem parse_adcs (x0 : BitVec 5) (x1 : BitVec 5) (x2 : BitVec 5) : parse 2 (A.adcs x0 x1 x2).diagram = A.adcs x0 x1 x2 := by
  simp only [A.diagram]
  show A.adcs _ _ _ = _
  congr 1 <;> fieldwise

theorem fixed_addExt (x0 : BitVec 5) (x1 : BitVec 5) (x2 : BitVec 5) (x3 : BitVec 3) (x4 : BitVec 3) : (A.addExt x0 x1 x2 x3 x4).diagram &&& 0xffe00000 = 0x8b200000 := by
  maskwise

theorem parse_addExt (x0 : BitVec 5) (x1 : BitVec 5) (x2 : BitVec 5) (x3 : BitVec 3) (x4 : BitVec 3) : parse 3 (A.addExt x0 x1 x2 x3 x4).diagram = A.addExt x0 x1 x2 x3 x4 := by
  simp only [A.diagram]
  show A.addExt _ _ _ _ _ = _
  congr 1 <;> fieldwise

theorem fixed_addImm (x0 : BitVec 5) (x1 : BitVec 5) (x2 : BitVec 12) : (A.addImm x0 x1 x2).diagram &&& 0xffc00000 = 0x91000000 := by
  maskwise

theorem parse_addImm (x0 : BitVec 5) (x1 : BitVec 5) (x2 : BitVec 12) : parse 4 (A.addImm x0 x1 x2).diagram = A.addImm x0 x1 x2 := by
  simp only [A.diagram]
  show A.addImm _ _ _ = _
  congr 1 <;> fieldwise

theorem fixed_addSh (x0 : BitVec 5) (x1 : BitVec 5) (x2 : BitVec 5) (x3 : BitVec 2) (x4 : BitVec 6) : (A.addSh x0 x1 x2 x3 x4).diagram &&& 0xff200000 = 0x8b000000 := by
  maskwise

theorem parse_addSh (x0 : BitVec 5) (x1 : BitVec 5) (x2 : BitVec 5) (x3 : BitVec 2) (x4 : BitVec 6) : parse 5 (A.addSh x0 x1 x2 x3 x4).diagram = A.addSh x0 x1 x2 x3 x4 := by
  simp only [A.diagram]
  show A.addSh _ _ _ _ _ = _
  congr 1 <;> fieldwise

theorem fixed_addg (x0 : BitVec 5) (x1 : BitVec 5) (x2 : BitVec 6) (x3 : BitVec 4) : (A.addg x0 x1 x2 x3).diagram &&& 0xffc0c000 = 0x91800000 := by
  maskwise

theorem parse_addg (x0 : BitVec 5) (x1 : BitVec 5) (x2 : BitVec 6) (x3 : BitVec 4) : parse 6 (A.addg x0 x1 x2 x3).diagram = A.addg x0 x1 x2 x3 := by
  simp only [A.diagram]
  show A.addg _ _ _ _ = _
  congr 1 <;> fieldwise

theorem fixed_addpt (x0 : BitVec 5) (x1 : BitVec 5) (x2 : BitVec 5) (x3 : BitVec 3) : (A.addpt x0 x1 x2 x3).diagram &&& 0xffe0e000 = 0x9a002000 := by
  maskwise

theorem parse_addpt (x0 : BitVec 5) (x1 : BitVec 5) (x2 : BitVec 5) (x3 : BitVec 3) : parse 7 (A.addpt x0 x1 x2 x3).diagram = A.addpt x0 x1 x2 x3 := by
  simp only [A.diagram]
  show A.addpt _ _ _ _ = _
  congr 1 <;> fieldwise

theorem fixed_addsExt (x0 : BitVec 5) (x1 : BitVec 5) (x2 : BitVec 5) (x3 : BitVec 3) (x4 : BitVec 3) : (A.addsExt x0 x1 x2 x3 x4).diagram &&& 0xffe00000 = 0xab200000 := by
  maskwise

theorem parse_addsExt (x0 : BitVec 5) (x1 : BitVec 5) (x2 : BitVec 5) (x3 : BitVec 3) (x4 : BitVec 3) : parse 8 (A.addsExt x0 x1 x2 x3 x4).diagram = A.addsExt x0 x1 x2 x3 x4 := by
  simp only [A.diagram]
  show A.addsExt _ _ _ _ _ = _
  congr 1 <;> fieldwise

theorem fixed_addsImm (x0 : BitVec 5) (x1 : BitVec 5) (x2 : BitVec 12) : (A.addsImm x0 x1 x2).diagram &&& 0xffc00000 = 0xb1000000 := by
  maskwise

theorem parse_addsImm (x0 : BitVec 5) (x1 : BitVec 5) (x2 : BitVec 12) : parse 9 (A.addsImm x0 x1 x2).diagram = A.addsImm x0 x1 x2 := by
  simp only [A.diagram]
  show A.addsImm _ _ _ = _
  congr 1 <;> fieldwise

theorem fixed_addsSh (x0 : BitVec 5) (x1 : BitVec 5) (x2 : BitVec 5) (x3 : BitVec 2) (x4 : BitVec 6) : (A.addsSh x0 x1 x2 x3 x4).diagram &&& 0xff200000 = 0xab000000 := by
  maskwise

theorem parse_addsSh (x0 : BitVec 5) (x1 : BitVec 5) (x2 : BitVec 5) (x3 : BitVec 2) (x4 : BitVec 6) : parse 10 (A.addsSh x0 x1 x2 x3 x4).diagram = A.addsSh x0 x1 x2 x3 x4 := by
  simp only [A.diagram]
  show A.addsSh _ _ _ _ _ = _
  congr 1 <;> fieldwise

theorem fixed_adr (x0 : BitVec 5) (x1 : BitVec 21) : (A.adr x0 x1).diagram &&& 0x9f000000 = 0x10000000 := by
  maskwise

theorem parse_adr (x0 : BitVec 5) (x1 : BitVec 21) : parse 11 (A.adr x0 x1).diagram = A.adr x0 x1 := by
  show A.adr _ (_ ++ _) = _
  rw [show (A.adr x0 x1).diagram.extractLsb' 5 19 = x1.extractLsb' 2 19 by simp only [A.diagram]; fieldwise,
    show (A.adr x0 x1).diagram.extractLsb' 29 2 = x1.extractLsb' 0 2 by simp only [A.diagram]; fieldwise,
    show (A.adr x0 x1).diagram.extractLsb' 0 5 = x0 by simp only [A.diagram]; fieldwise,
    show x1.extractLsb' 2 19 ++ x1.extractLsb' 0 2 = x1 by fieldwise2]

theorem fixed_adrp (x0 : BitVec 5) (x1 : BitVec 21) : (A.adrp x0 x1).diagram &&& 0x9f000000 = 0x90000000 := by
  maskwise

theorem parse_adrp (x0 : BitVec 5) (x1 : BitVec 21) : parse 12 (A.adrp x0 x1).diagram = A.adrp x0 x1 := by
  show A.adrp _ (_ ++ _) = _
  rw [show (A.adrp x0 x1).diagram.extractLsb' 5 19 = x1.extractLsb' 2 19 by simp only [A.diagram]; fieldwise,
    show (A.adrp x0 x1).diagram.extractLsb' 29 2 = x1.extractLsb' 0 2 by simp only [A.diagram]; fieldwise,
    show (A.adrp x0 x1).diagram.extractLsb' 0 5 = x0 by simp only [A.diagram]; fieldwise,
    show x1.extractLsb' 2 19 ++ x1.extractLsb' 0 2 = x1 by fieldwise2]

theorem fixed_andSh (x0 : BitVec 5) (x1 : BitVec 5) (x2 : BitVec 5) (x3 : BitVec 2) (x4 : BitVec 6) : (A.andSh x0 x1 x2 x3 x4).diagram &&& 0xff200000 = 0x8a000000 := by
  maskwise

theorem parse_andSh (x0 : BitVec 5) (x1 : BitVec 5) (x2 : BitVec 5) (x3 : BitVec 2) (x4 : BitVec 6) : parse 13 (A.andSh x0 x1 x2 x3 x4).diagram = A.andSh x0 x1 x2 x3 x4 := by
  simp only [A.diagram]
  show A.andSh _ _ _ _ _ = _
  congr 1 <;> fieldwise

theorem fixed_andsSh (x0 : BitVec 5) (x1 : BitVec 5) (x2 : BitVec 5) (x3 : BitVec 2) (x4 : BitVec 6) : (A.andsSh x0 x1 x2 x3 x4).diagram &&& 0xff200000 = 0xea000000 := by
  maskwise

theorem parse_andsSh (x0 : BitVec 5) (x1 : BitVec 5) (x2 : BitVec 5) (x3 : BitVec 2) (x4 : BitVec 6) : parse 14 (A.andsSh x0 x1 x2 x3 x4).diagram = A.andsSh x0 x1 x2 x3 x4 := by
  simp only [A.diagram]
  show A.andsSh _ _ _ _ _ = _
  congr 1 <;> fieldwise

theorem fixed_apas (x0 : BitVec 5) : (A.apas x0).diagram &&& 0xffffffe0 = 0xd50e7000 := by
  maskwise

theorem parse_apas (x0 : BitVec 5) : parse 15 (A.apas x0).diagram = A.apas x0 := by
  simp only [A.diagram]
  show A.apas _ = _
  congr 1
  fieldwise

theorem fixed_asrImm (x0 : BitVec 5) (x1 : BitVec 5) (x2 : BitVec 6) : (A.asrImm x0 x1 x2).diagram &&& 0xffc0fc00 = 0x9340fc00 := by
  maskwise

theorem parse_asrImm (x0 : BitVec 5) (x1 : BitVec 5) (x2 : BitVec 6) : parse 16 (A.asrImm x0 x1 x2).diagram = A.asrImm x0 x1 x2 := by
  simp only [A.diagram]
  show A.asrImm _ _ _ = _
  congr 1 <;> fieldwise

theorem fixed_asrv (x0 : BitVec 5) (x1 : BitVec 5) (x2 : BitVec 5) : (A.asrv x0 x1 x2).diagram &&& 0xffe0fc00 = 0x9ac02800 := by
  maskwise

theorem parse_asrv (x0 : BitVec 5) (x1 : BitVec 5) (x2 : BitVec 5) : parse 17 (A.asrv x0 x1 x2).diagram = A.asrv x0 x1 x2 := by
  simp only [A.diagram]
  show A.asrv _ _ _ = _
  congr 1 <;> fieldwise

theorem fixed_at_ (x0 : BitVec 5) (x1 : ATOp) : (A.at_ x0 x1).diagram &&& 0xfff8f800 = 0xd5087800 := by
  have hc : x1.crm.getLsbD 3 = true := by cases x1 <;> rfl
  simp only [A.diagram]
  apply BitVec.eq_of_getLsbD_eq
  intro i hi
  simp only [BitVec.getLsbD_and]
  rw [BitVec.getLsbD_append]
  simp only [BitVec.getLsbD_append, BitVec.getLsbD_ofNat]
  interval_cases i <;> simp [-BitVec.getLsbD_eq_getElem, Nat.testBit, hc]

theorem parse_at_ (x0 : BitVec 5) (x1 : ATOp) : parse 18 (A.at_ x0 x1).diagram = A.at_ x0 x1 := by
  show A.at_ _ (atOf _ _ _) = _
  rw [show (A.at_ x0 x1).diagram.extractLsb' 16 3 = x1.op1 by simp only [A.diagram]; fieldwise,
    show (A.at_ x0 x1).diagram.extractLsb' 8 4 = x1.crm by simp only [A.diagram]; fieldwise,
    show (A.at_ x0 x1).diagram.extractLsb' 5 3 = x1.op2 by simp only [A.diagram]; fieldwise, atOf_eq,
    show (A.at_ x0 x1).diagram.extractLsb' 0 5 = x0 by simp only [A.diagram]; fieldwise]

theorem fixed_autda (x0 : BitVec 5) (x1 : BitVec 5) : (A.autda x0 x1).diagram &&& 0xfffffc00 = 0xdac11800 := by
  maskwise

theorem parse_autda (x0 : BitVec 5) (x1 : BitVec 5) : parse 19 (A.autda x0 x1).diagram = A.autda x0 x1 := by
  simp only [A.diagram]
  show A.autda _ _ = _
  congr 1 <;> fieldwise

theorem fixed_autdza (x0 : BitVec 5) : (A.autdza x0).diagram &&& 0xffffffe0 = 0xdac13be0 := by
  maskwise

theorem parse_autdza (x0 : BitVec 5) : parse 20 (A.autdza x0).diagram = A.autdza x0 := by
  simp only [A.diagram]
  show A.autdza _ = _
  congr 1
  fieldwise

theorem fixed_autdb (x0 : BitVec 5) (x1 : BitVec 5) : (A.autdb x0 x1).diagram &&& 0xfffffc00 = 0xdac11c00 := by
  maskwise

theorem parse_autdb (x0 : BitVec 5) (x1 : BitVec 5) : parse 21 (A.autdb x0 x1).diagram = A.autdb x0 x1 := by
  simp only [A.diagram]
  show A.autdb _ _ = _
  congr 1 <;> fieldwise

theorem fixed_autdzb (x0 : BitVec 5) : (A.autdzb x0).diagram &&& 0xffffffe0 = 0xdac13fe0 := by
  maskwise

theorem parse_autdzb (x0 : BitVec 5) : parse 22 (A.autdzb x0).diagram = A.autdzb x0 := by
  simp only [A.diagram]
  show A.autdzb _ = _
  congr 1
  fieldwise

theorem fixed_autia (x0 : BitVec 5) (x1 : BitVec 5) : (A.autia x0 x1).diagram &&& 0xfffffc00 = 0xdac11000 := by
  maskwise

theorem parse_autia (x0 : BitVec 5) (x1 : BitVec 5) : parse 23 (A.autia x0 x1).diagram = A.autia x0 x1 := by
  simp only [A.diagram]
  show A.autia _ _ = _
  congr 1 <;> fieldwise

theorem fixed_autiza (x0 : BitVec 5) : (A.autiza x0).diagram &&& 0xffffffe0 = 0xdac133e0 := by
  maskwise

theorem parse_autiza (x0 : BitVec 5) : parse 24 (A.autiza x0).diagram = A.autiza x0 := by
  simp only [A.diagram]
  show A.autiza _ = _
  congr 1
  fieldwise

theorem fixed_autiaz : A.autiaz.diagram &&& 0xffffffff = 0xd503239f := by rfl

theorem fixed_autiasp : A.autiasp.diagram &&& 0xffffffff = 0xd50323bf := by rfl

theorem fixed_autia1716 : A.autia1716.diagram &&& 0xffffffff = 0xd503219f := by rfl

theorem fixed_autia171615 : A.autia171615.diagram &&& 0xffffffff = 0xdac1bbfe := by rfl

theorem fixed_autiasppc (x0 : BitVec 16) : (A.autiasppc x0).diagram &&& 0xffe0001f = 0xf380001f := by
  maskwise

theorem parse_autiasppc (x0 : BitVec 16) : parse 29 (A.autiasppc x0).diagram = A.autiasppc x0 := by
  simp only [A.diagram]
  show A.autiasppc _ = _
  congr 1
  fieldwise

theorem fixed_autiasppcr (x0 : BitVec 5) : (A.autiasppcr x0).diagram &&& 0xfffffc1f = 0xdac1901e := by
  maskwise

theorem parse_autiasppcr (x0 : BitVec 5) : parse 30 (A.autiasppcr x0).diagram = A.autiasppcr x0 := by
  simp only [A.diagram]
  show A.autiasppcr _ = _
  congr 1
  fieldwise

theorem fixed_autib (x0 : BitVec 5) (x1 : BitVec 5) : (A.autib x0 x1).diagram &&& 0xfffffc00 = 0xdac11400 := by
  maskwise

theorem parse_autib (x0 : BitVec 5) (x1 : BitVec 5) : parse 31 (A.autib x0 x1).diagram = A.autib x0 x1 := by
  simp only [A.diagram]
  show A.autib _ _ = _
  congr 1 <;> fieldwise

theorem fixed_autizb (x0 : BitVec 5) : (A.autizb x0).diagram &&& 0xffffffe0 = 0xdac137e0 := by
  maskwise

theorem parse_autizb (x0 : BitVec 5) : parse 32 (A.autizb x0).diagram = A.autizb x0 := by
  simp only [A.diagram]
  show A.autizb _ = _
  congr 1
  fieldwise

theorem fixed_autibz : A.autibz.diagram &&& 0xffffffff = 0xd50323df := by rfl

theorem fixed_autib1716 : A.autib1716.diagram &&& 0xffffffff = 0xd50321df := by rfl

theorem fixed_autibsp : A.autibsp.diagram &&& 0xffffffff = 0xd50323ff := by rfl

theorem fixed_autib171615 : A.autib171615.diagram &&& 0xffffffff = 0xdac1bffe := by rfl

theorem fixed_autibsppc (x0 : BitVec 16) : (A.autibsppc x0).diagram &&& 0xffe0001f = 0xf3a0001f := by
  maskwise

theorem parse_autibsppc (x0 : BitVec 16) : parse 37 (A.autibsppc x0).diagram = A.autibsppc x0 := by
  simp only [A.diagram]
  show A.autibsppc _ = _
  congr 1
  fieldwise

theorem fixed_autibsppcr (x0 : BitVec 5) : (A.autibsppcr x0).diagram &&& 0xfffffc1f = 0xdac1941e := by
  maskwise

theorem parse_autibsppcr (x0 : BitVec 5) : parse 38 (A.autibsppcr x0).diagram = A.autibsppcr x0 := by
  simp only [A.diagram]
  show A.autibsppcr _ = _
  congr 1
  fieldwise

theorem fixed_axflag : A.axflag.diagram &&& 0xffffffff = 0xd500405f := by rfl

theorem fixed_cmp (x0 : BitVec 5) (x1 : BitVec 5) (x2 : BitVec 2) (x3 : BitVec 6) : (A.cmp x0 x1 x2 x3).diagram &&& 0xff20001f = 0xeb00001f := by
  maskwise

theorem parse_cmp (x0 : BitVec 5) (x1 : BitVec 5) (x2 : BitVec 2) (x3 : BitVec 6) : parse 40 (A.cmp x0 x1 x2 x3).diagram = A.cmp x0 x1 x2 x3 := by
  simp only [A.diagram]
  show A.cmp _ _ _ _ = _
  congr 1 <;> fieldwise

theorem fixed_cset (x0 : BitVec 5) (x1 : BitVec 4) : (A.cset x0 x1).diagram &&& 0xffff0fe0 = 0x9a9f07e0 := by
  maskwise

theorem parse_cset (x0 : BitVec 5) (x1 : BitVec 4) : parse 41 (A.cset x0 x1).diagram = A.cset x0 x1 := by
  simp only [A.diagram]
  show A.cset _ _ = _
  congr 1 <;> fieldwise

theorem fixed_ret (x0 : BitVec 5) : (A.ret x0).diagram &&& 0xfffffc1f = 0xd65f0000 := by
  maskwise

theorem parse_ret (x0 : BitVec 5) : parse 42 (A.ret x0).diagram = A.ret x0 := by
  simp only [A.diagram]
  show A.ret _ = _
  congr 1
  fieldwise

theorem diagram_fixed (i : A) : i.diagram &&& mask (kind i) = value (kind i) := by
  cases i with
  | abs x0 x1 => exact fixed_abs x0 x1
  | adc x0 x1 x2 => exact fixed_adc x0 x1 x2
  | adcs x0 x1 x2 => exact fixed_adcs x0 x1 x2
  | addExt x0 x1 x2 x3 x4 => exact fixed_addExt x0 x1 x2 x3 x4
  | addImm x0 x1 x2 => exact fixed_addImm x0 x1 x2
  | addSh x0 x1 x2 x3 x4 => exact fixed_addSh x0 x1 x2 x3 x4
  | addg x0 x1 x2 x3 => exact fixed_addg x0 x1 x2 x3
  | addpt x0 x1 x2 x3 => exact fixed_addpt x0 x1 x2 x3
  | addsExt x0 x1 x2 x3 x4 => exact fixed_addsExt x0 x1 x2 x3 x4
  | addsImm x0 x1 x2 => exact fixed_addsImm x0 x1 x2
  | addsSh x0 x1 x2 x3 x4 => exact fixed_addsSh x0 x1 x2 x3 x4
  | adr x0 x1 => exact fixed_adr x0 x1
  | adrp x0 x1 => exact fixed_adrp x0 x1
  | andSh x0 x1 x2 x3 x4 => exact fixed_andSh x0 x1 x2 x3 x4
  | andsSh x0 x1 x2 x3 x4 => exact fixed_andsSh x0 x1 x2 x3 x4
  | apas x0 => exact fixed_apas x0
  | asrImm x0 x1 x2 => exact fixed_asrImm x0 x1 x2
  | asrv x0 x1 x2 => exact fixed_asrv x0 x1 x2
  | at_ x0 x1 => exact fixed_at_ x0 x1
  | autda x0 x1 => exact fixed_autda x0 x1
  | autdza x0 => exact fixed_autdza x0
  | autdb x0 x1 => exact fixed_autdb x0 x1
  | autdzb x0 => exact fixed_autdzb x0
  | autia x0 x1 => exact fixed_autia x0 x1
  | autiza x0 => exact fixed_autiza x0
  | autiaz => exact fixed_autiaz
  | autiasp => exact fixed_autiasp
  | autia1716 => exact fixed_autia1716
  | autia171615 => exact fixed_autia171615
  | autiasppc x0 => exact fixed_autiasppc x0
  | autiasppcr x0 => exact fixed_autiasppcr x0
  | autib x0 x1 => exact fixed_autib x0 x1
  | autizb x0 => exact fixed_autizb x0
  | autibz => exact fixed_autibz
  | autib1716 => exact fixed_autib1716
  | autibsp => exact fixed_autibsp
  | autib171615 => exact fixed_autib171615
  | autibsppc x0 => exact fixed_autibsppc x0
  | autibsppcr x0 => exact fixed_autibsppcr x0
  | axflag => exact fixed_axflag
  | cmp x0 x1 x2 x3 => exact fixed_cmp x0 x1 x2 x3
  | cset x0 x1 => exact fixed_cset x0 x1
  | ret x0 => exact fixed_ret x0

theorem parse_diagram (i : A) : parse (kind i) i.diagram = i := by
  cases i with
  | abs x0 x1 => exact parse_abs x0 x1
  | adc x0 x1 x2 => exact parse_adc x0 x1 x2
  | adcs x0 x1 x2 => exact parse_adcs x0 x1 x2
  | addExt x0 x1 x2 x3 x4 => exact parse_addExt x0 x1 x2 x3 x4
  | addImm x0 x1 x2 => exact parse_addImm x0 x1 x2
  | addSh x0 x1 x2 x3 x4 => exact parse_addSh x0 x1 x2 x3 x4
  | addg x0 x1 x2 x3 => exact parse_addg x0 x1 x2 x3
  | addpt x0 x1 x2 x3 => exact parse_addpt x0 x1 x2 x3
  | addsExt x0 x1 x2 x3 x4 => exact parse_addsExt x0 x1 x2 x3 x4
  | addsImm x0 x1 x2 => exact parse_addsImm x0 x1 x2
  | addsSh x0 x1 x2 x3 x4 => exact parse_addsSh x0 x1 x2 x3 x4
  | adr x0 x1 => exact parse_adr x0 x1
  | adrp x0 x1 => exact parse_adrp x0 x1
  | andSh x0 x1 x2 x3 x4 => exact parse_andSh x0 x1 x2 x3 x4
  | andsSh x0 x1 x2 x3 x4 => exact parse_andsSh x0 x1 x2 x3 x4
  | apas x0 => exact parse_apas x0
  | asrImm x0 x1 x2 => exact parse_asrImm x0 x1 x2
  | asrv x0 x1 x2 => exact parse_asrv x0 x1 x2
  | at_ x0 x1 => exact parse_at_ x0 x1
  | autda x0 x1 => exact parse_autda x0 x1
  | autdza x0 => exact parse_autdza x0
  | autdb x0 x1 => exact parse_autdb x0 x1
  | autdzb x0 => exact parse_autdzb x0
  | autia x0 x1 => exact parse_autia x0 x1
  | autiza x0 => exact parse_autiza x0
  | autiaz => rfl
  | autiasp => rfl
  | autia1716 => rfl
  | autia171615 => rfl
  | autiasppc x0 => exact parse_autiasppc x0
  | autiasppcr x0 => exact parse_autiasppcr x0
  | autib x0 x1 => exact parse_autib x0 x1
  | autizb x0 => exact parse_autizb x0
  | autibz => rfl
  | autib1716 => rfl
  | autibsp => rfl
  | autib171615 => rfl
  | autibsppc x0 => exact parse_autibsppc x0
  | autibsppcr x0 => exact parse_autibsppcr x0
  | axflag => rfl
  | cmp x0 x1 x2 x3 => exact parse_cmp x0 x1 x2 x3
  | cset x0 x1 => exact parse_cset x0 x1
  | ret x0 => exact parse_ret x0

theorem masks_conflict : ∀ k l : Fin 43, k = l ∨ value k &&& mask l ≠ value l &&& mask k := by decide +kernel

theorem diagram_injective (i j : A) (h : i.diagram = j.diagram) : i = j := by
  have hk : kind i = kind j := by
    rcases masks_conflict (kind i) (kind j) with h' | h'
    · exact h'
    · exfalso; apply h'
      rw [← diagram_fixed i, ← diagram_fixed j, h]
      rw [BitVec.and_assoc, BitVec.and_assoc, BitVec.and_comm (mask (kind i))]
  rw [← parse_diagram i, ← parse_diagram j, h, hk]

end Verif.Arm64
