import Verif.Arm64.Spec
import Mathlib.Tactic.IntervalCases
namespace Verif.Arm64
open Spec

/-- Compare two words bit by bit. -/
macro "bitwise" : tactic => `(tactic| (
  simp only [A.call, word, A.diagram, Option.some.injEq, rd, rn, rm, Spec.r, imm2, imm3, imm4, imm6, imm12, imm16]
  apply BitVec.eq_of_getLsbD_eq
  intro i hi
  rw [BitVec.getLsbD_append]
  simp only [BitVec.getLsbD_append, BitVec.getLsbD_or, BitVec.getLsbD_shiftLeft, BitVec.getLsbD_setWidth, BitVec.getLsbD_and, BitVec.getLsbD_ofNat]
  interval_cases i <;> simp [-BitVec.getLsbD_eq_getElem, Nat.testBit]))

/-- Two words that differ in a bit. -/
macro "wrongbit" k:num : tactic => `(tactic| (
  intro he
  simp only [A.call, word, A.diagram, Option.some.injEq, rd, rn, rm, Spec.r, imm2, imm3, imm4, imm6, imm12, imm16] at he
  have hb := congrArg (fun w => BitVec.getLsbD w $k) he
  beta_reduce at hb
  rw [BitVec.getLsbD_append] at hb
  simp only [BitVec.getLsbD_append, BitVec.getLsbD_or, BitVec.getLsbD_shiftLeft, BitVec.getLsbD_setWidth, BitVec.getLsbD_and, BitVec.getLsbD_ofNat] at hb
  simp [-BitVec.getLsbD_eq_getElem, Nat.testBit] at hb))

theorem word_adc (x0 : BitVec 5) (x1 : BitVec 5) (x2 : BitVec 5) : word (A.adc x0 x1 x2).call = some (A.adc x0 x1 x2).diagram := by
  bitwise

theorem word_adcs (x0 : BitVec 5) (x1 : BitVec 5) (x2 : BitVec 5) : word (A.adcs x0 x1 x2).call = some (A.adcs x0 x1 x2).diagram := by
  bitwise

theorem word_addExt (x0 : BitVec 5) (x1 : BitVec 5) (x2 : BitVec 5) (x3 : BitVec 3) (x4 : BitVec 3) : word (A.addExt x0 x1 x2 x3 x4).call = some (A.addExt x0 x1 x2 x3 x4).diagram := by
  bitwise

theorem word_addSh (x0 : BitVec 5) (x1 : BitVec 5) (x2 : BitVec 5) (x3 : BitVec 2) (x4 : BitVec 6) : word (A.addSh x0 x1 x2 x3 x4).call = some (A.addSh x0 x1 x2 x3 x4).diagram := by
  bitwise

theorem word_addsExt (x0 : BitVec 5) (x1 : BitVec 5) (x2 : BitVec 5) (x3 : BitVec 3) (x4 : BitVec 3) : word (A.addsExt x0 x1 x2 x3 x4).call = some (A.addsExt x0 x1 x2 x3 x4).diagram := by
  bitwise

theorem word_addsImm (x0 : BitVec 5) (x1 : BitVec 5) (x2 : BitVec 12) : word (A.addsImm x0 x1 x2).call = some (A.addsImm x0 x1 x2).diagram := by
  bitwise

theorem word_addsSh (x0 : BitVec 5) (x1 : BitVec 5) (x2 : BitVec 5) (x3 : BitVec 2) (x4 : BitVec 6) : word (A.addsSh x0 x1 x2 x3 x4).call = some (A.addsSh x0 x1 x2 x3 x4).diagram := by
  bitwise

theorem word_andSh (x0 : BitVec 5) (x1 : BitVec 5) (x2 : BitVec 5) (x3 : BitVec 2) (x4 : BitVec 6) : word (A.andSh x0 x1 x2 x3 x4).call = some (A.andSh x0 x1 x2 x3 x4).diagram := by
  bitwise

theorem word_andsSh (x0 : BitVec 5) (x1 : BitVec 5) (x2 : BitVec 5) (x3 : BitVec 2) (x4 : BitVec 6) : word (A.andsSh x0 x1 x2 x3 x4).call = some (A.andsSh x0 x1 x2 x3 x4).diagram := by
  bitwise

theorem word_apas (x0 : BitVec 5) : word (A.apas x0).call = some (A.apas x0).diagram := by
  bitwise

theorem word_asrImm (x0 : BitVec 5) (x1 : BitVec 5) (x2 : BitVec 6) : word (A.asrImm x0 x1 x2).call = some (A.asrImm x0 x1 x2).diagram := by
  bitwise

theorem word_asrv (x0 : BitVec 5) (x1 : BitVec 5) (x2 : BitVec 5) : word (A.asrv x0 x1 x2).call = some (A.asrv x0 x1 x2).diagram := by
  bitwise

theorem word_autda (x0 : BitVec 5) (x1 : BitVec 5) : word (A.autda x0 x1).call = some (A.autda x0 x1).diagram := by
  bitwise

theorem word_autdb (x0 : BitVec 5) (x1 : BitVec 5) : word (A.autdb x0 x1).call = some (A.autdb x0 x1).diagram := by
  bitwise

theorem word_autia (x0 : BitVec 5) (x1 : BitVec 5) : word (A.autia x0 x1).call = some (A.autia x0 x1).diagram := by
  bitwise

theorem word_autiaz : word A.autiaz.call = some A.autiaz.diagram := by rfl

theorem word_autiasp : word A.autiasp.call = some A.autiasp.diagram := by rfl

theorem word_autia171615 : word A.autia171615.call = some A.autia171615.diagram := by rfl

theorem word_autiasppcr (x0 : BitVec 5) : word (A.autiasppcr x0).call = some (A.autiasppcr x0).diagram := by
  bitwise

theorem word_autib (x0 : BitVec 5) (x1 : BitVec 5) : word (A.autib x0 x1).call = some (A.autib x0 x1).diagram := by
  bitwise

theorem word_autizb (x0 : BitVec 5) : word (A.autizb x0).call = some (A.autizb x0).diagram := by
  bitwise

theorem word_autib171615 : word A.autib171615.call = some A.autib171615.diagram := by rfl

theorem word_autibsppcr (x0 : BitVec 5) : word (A.autibsppcr x0).call = some (A.autibsppcr x0).diagram := by
  bitwise

theorem word_axflag : word A.axflag.call = some A.axflag.diagram := by rfl

theorem word_cset (x0 : BitVec 5) (x1 : BitVec 4) : word (A.cset x0 x1).call = some (A.cset x0 x1).diagram := by
  bitwise

theorem word_ret (x0 : BitVec 5) : word (A.ret x0).call = some (A.ret x0).diagram := by
  bitwise

theorem slt_zero {w : Nat} (v : BitVec w) : v.slt 0 = v.msb := BitVec.slt_zero_eq_msb

theorem imm12s_pos (v : BitVec 12) : imm12s (v.setWidth 16) = v.setWidth 32 := by
  have h : (v.setWidth 16).slt 0 = false := by
    rw [slt_zero]; simp [BitVec.msb_eq_getLsbD_last]
  simp only [imm12s, h]
  apply BitVec.eq_of_getLsbD_eq
  intro i hi
  simp only [Bool.false_eq_true, if_false, BitVec.getLsbD_signExtend, BitVec.getLsbD_setWidth, BitVec.getLsbD_and, BitVec.getLsbD_ofNat]
  interval_cases i <;> simp [-BitVec.getLsbD_eq_getElem, Nat.testBit, BitVec.msb_eq_getLsbD_last]

theorem imm6s_pos : ∀ v : BitVec 6, imm6s (v.setWidth 8) = v.setWidth 32 := by decide +kernel
theorem imm4s_pos : ∀ v : BitVec 4, imm4s (v.setWidth 8) = v.setWidth 32 := by decide +kernel

theorem word_addImm (d n : BitVec 5) (i : BitVec 12) : word (A.addImm d n i).call = some (A.addImm d n i).diagram := by
  simp only [A.call, word, imm12s_pos]
  bitwise

theorem immhi_eq (v : BitVec 21) : immhi (v.signExtend 32) = (v.extractLsb' 2 19).setWidth 32 <<< 5 := by
  unfold immhi
  rw [slt_zero, BitVec.msb_signExtend]
  cases h : v.msb <;> rw [BitVec.msb_eq_getLsbD_last] at h <;> simp only [Nat.reduceSub] at h <;>
   (apply BitVec.eq_of_getLsbD_eq
    intro i hi
    simp only [ite_true, ite_false, BitVec.getLsbD_signExtend, BitVec.getLsbD_setWidth, BitVec.getLsbD_and, BitVec.getLsbD_ofNat, BitVec.getLsbD_shiftLeft,
      BitVec.getLsbD_or, BitVec.getLsbD_extractLsb', Nat.reduceSub, Nat.reduceGT, Nat.reduceSub]
    interval_cases i <;> simp [-BitVec.getLsbD_eq_getElem, Nat.testBit, h, BitVec.getLsbD_signExtend])

theorem immlo_eq (v : BitVec 21) : immlo (v.signExtend 32) = (v.extractLsb' 0 2).setWidth 32 <<< 29 := by
  unfold immlo
  apply BitVec.eq_of_getLsbD_eq
  intro i hi
  simp only [BitVec.getLsbD_signExtend, BitVec.getLsbD_setWidth, BitVec.getLsbD_and, BitVec.getLsbD_ofNat, BitVec.getLsbD_shiftLeft,
    BitVec.getLsbD_or, BitVec.getLsbD_extractLsb']
  interval_cases i <;> simp [-BitVec.getLsbD_eq_getElem, Nat.testBit]

theorem word_adr (d : BitVec 5) (i : BitVec 21) : word (A.adr d i).call = some (A.adr d i).diagram := by
  simp only [A.call, word, immhi_eq, immlo_eq, A.diagram]
  generalize BitVec.extractLsb' 0 2 i = lo
  generalize BitVec.extractLsb' 2 19 i = hi
  bitwise

theorem word_adrp (d : BitVec 5) (i : BitVec 21) : word (A.adrp d i).call = some (A.adrp d i).diagram := by
  simp only [A.call, word, immhi_eq, immlo_eq, A.diagram]
  generalize BitVec.extractLsb' 0 2 i = lo
  generalize BitVec.extractLsb' 2 19 i = hi
  bitwise

theorem atFields_eq (op : ATOp) (h : op ≠ .s1e1wp) :
    atFields op.args.1 op.args.2.1 op.args.2.2 = (op.op1.setWidth 32, op.crm.setWidth 32, op.op2.setWidth 32) := by
  cases op <;> first | (exact absurd rfl h) | decide

theorem word_at_ (t : BitVec 5) (op : ATOp) (h : op ≠ .s1e1wp) : word (A.at_ t op).call = some (A.at_ t op).diagram := by
  have hc : op.crm.getLsbD 3 = true := by cases op <;> rfl
  simp only [A.call, word, atFields_eq op h, A.diagram]
  revert hc
  generalize op.crm = c
  generalize op.op1 = o1
  generalize op.op2 = o2
  intro hc
  simp only [Option.some.injEq, rd, Spec.r]
  apply BitVec.eq_of_getLsbD_eq
  intro i hi
  rw [BitVec.getLsbD_append]
  simp only [BitVec.getLsbD_append, BitVec.getLsbD_or, BitVec.getLsbD_shiftLeft, BitVec.getLsbD_setWidth, BitVec.getLsbD_and, BitVec.getLsbD_ofNat]
  interval_cases i <;> simp [-BitVec.getLsbD_eq_getElem, Nat.testBit, hc]

theorem word_wp (t : BitVec 5) : word (A.at_ t .s1e1wp).call = word (A.at_ t .s1e1r).call := by
  simp only [A.call, word, ATOp.args]
  rw [show atFields 1 1 2 = (0, 0, 0) by decide, show atFields 1 1 1 = (0, 8, 0) by decide]
  simp only [Option.some.injEq, rd, Spec.r]
  apply BitVec.eq_of_getLsbD_eq
  intro i hi
  simp only [BitVec.getLsbD_or, BitVec.getLsbD_shiftLeft, BitVec.getLsbD_setWidth, BitVec.getLsbD_and, BitVec.getLsbD_ofNat]
  interval_cases i <;> simp [-BitVec.getLsbD_eq_getElem, Nat.testBit]

end Verif.Arm64
