import Verif.Amd64.Spec
import Mathlib.Tactic.IntervalCases
namespace Verif.Amd64
open Spec

/-! ### Decoding does not look past the instruction -/

theorem prefixes_append (o : Bool) (bs rest : List Byte) (h : (prefixes o bs).2 ≠ []) :
    prefixes o (bs ++ rest) = ((prefixes o bs).1, (prefixes o bs).2 ++ rest) := by
  induction bs generalizing o with
  | nil => exact absurd rfl h
  | cons b bs ih =>
    simp only [List.cons_append, prefixes] at h ⊢
    by_cases h1 : b = 0x66
    · simp only [h1, if_true] at h ⊢; exact ih true h
    · simp only [h1, if_false] at h ⊢
      by_cases h2 : BitVec.toNat b / 16 = 4
      · simp only [h2, if_true] at h ⊢
        cases bs with
        | nil => simp at h
        | cons c cs =>
          simp only [List.cons_append, List.head?_cons] at h ih ⊢
          by_cases h3 : some c = some 0x66
          · simp only [h3, if_true] at h ⊢; exact ih o h
          · simp only [h3, if_false, List.cons_append]
      · simp only [h2, if_false, List.cons_append]

theorem read16_append {bs : List Byte} {v r} (rest : List Byte) (h : read16 bs = some (v, r)) : read16 (bs ++ rest) = some (v, r ++ rest) := by
  unfold read16 at h
  split at h
  · simp only [Option.some.injEq, Prod.mk.injEq] at h; obtain ⟨rfl, rfl⟩ := h; rfl
  · cases h

theorem read32_append {bs : List Byte} {v r} (rest : List Byte) (h : read32 bs = some (v, r)) : read32 (bs ++ rest) = some (v, r ++ rest) := by
  unfold read32 at h
  split at h
  · simp only [Option.some.injEq, Prod.mk.injEq] at h; obtain ⟨rfl, rfl⟩ := h; rfl
  · cases h

theorem rmOperand_append {p w mod rm} {bs : List Byte} {o r} (rest : List Byte) (h : rmOperand p w mod rm bs = some (o, r)) :
    rmOperand p w mod rm (bs ++ rest) = some (o, r ++ rest) := by
  unfold rmOperand at h ⊢
  by_cases h3 : mod = 3
  · simp only [h3, if_true, Option.some.injEq, Prod.mk.injEq] at h ⊢; obtain ⟨rfl, rfl⟩ := h; exact ⟨rfl, rfl⟩
  · simp only [h3, if_false] at h ⊢
    by_cases h0 : mod = 0
    · simp only [h0, if_true] at h ⊢
      by_cases h4 : rm = 4
      · simp only [h4, if_true] at h ⊢
        cases bs with
        | nil => cases h
        | cons s bs =>
          simp only [List.cons_append] at h ⊢
          split at h
          · cases h
          · rename_i hs
            simp only [hs, if_false, Option.some.injEq, Prod.mk.injEq] at h ⊢; obtain ⟨rfl, rfl⟩ := h; exact ⟨rfl, rfl⟩
      · simp only [h4, if_false] at h ⊢
        by_cases h5 : rm = 5
        · simp only [h5, if_true, Option.map_eq_some_iff, Prod.mk.injEq, Prod.exists] at h ⊢
          obtain ⟨v, r', hr, rfl, rfl⟩ := h
          exact ⟨v, r' ++ rest, read32_append rest hr, rfl, rfl⟩
        · simp only [h5, if_false, Option.some.injEq, Prod.mk.injEq] at h ⊢; obtain ⟨rfl, rfl⟩ := h; exact ⟨rfl, rfl⟩
    · simp only [h0, if_false] at h; cases h

theorem immediate_append {w} {bs : List Byte} {o r} (rest : List Byte) (h : immediate w bs = some (o, r)) :
    immediate w (bs ++ rest) = some (o, r ++ rest) := by
  cases w with
  | b =>
    cases bs with
    | nil => cases h
    | cons b bs => simp only [immediate, Option.some.injEq, Prod.mk.injEq, List.cons_append] at h ⊢; obtain ⟨rfl, rfl⟩ := h; exact ⟨rfl, rfl⟩
  | w =>
    simp only [immediate, Option.map_eq_some_iff, Prod.mk.injEq, Prod.exists] at h ⊢
    obtain ⟨v, r', hr, rfl, rfl⟩ := h
    exact ⟨v, r' ++ rest, read16_append rest hr, rfl, rfl⟩
  | d =>
    simp only [immediate, Option.map_eq_some_iff, Prod.mk.injEq, Prod.exists] at h ⊢
    obtain ⟨v, r', hr, rfl, rfl⟩ := h
    exact ⟨v, r' ++ rest, read32_append rest hr, rfl, rfl⟩
  | q =>
    simp only [immediate, Option.map_eq_some_iff, Prod.mk.injEq, Prod.exists] at h ⊢
    obtain ⟨v, r', hr, rfl, rfl⟩ := h
    exact ⟨v, r' ++ rest, read32_append rest hr, rfl, rfl⟩

theorem withModRM_append {p op w t} {bs : List Byte} {i r} (rest : List Byte) (h : withModRM p op w t bs = some (i, r)) :
    withModRM p op w t (bs ++ rest) = some (i, r ++ rest) := by
  cases bs with
  | nil => cases h
  | cons m bs =>
    simp only [withModRM, Option.map_eq_some_iff, Prod.exists, List.cons_append] at h ⊢
    obtain ⟨o, r', hr, hi⟩ := h
    refine ⟨o, r' ++ rest, rmOperand_append rest hr, ?_⟩
    cases t <;> simp only [Bool.false_eq_true, if_true, if_false, Prod.mk.injEq] at hi ⊢ <;> obtain ⟨rfl, rfl⟩ := hi <;> exact ⟨rfl, rfl⟩

theorem group1_append {p w t} {bs : List Byte} {i r} (rest : List Byte) (h : group1 p w t bs = some (i, r)) :
    group1 p w t (bs ++ rest) = some (i, r ++ rest) := by
  cases bs with
  | nil => cases h
  | cons m bs =>
    simp only [group1, Option.bind_eq_some_iff, Prod.exists, List.cons_append] at h ⊢
    obtain ⟨o, r', hr, hi⟩ := h
    refine ⟨o, r' ++ rest, rmOperand_append rest hr, ?_⟩
    cases t
    · simp only [Bool.false_eq_true, if_false, Option.map_eq_some_iff, Prod.mk.injEq, Prod.exists] at hi ⊢
      obtain ⟨v, r', hr, rfl, rfl⟩ := hi
      exact ⟨v, r' ++ rest, immediate_append rest hr, rfl, rfl⟩
    · simp only [if_true] at hi ⊢
      cases r' with
      | nil => cases hi
      | cons b r' => simp only [Option.some.injEq, Prod.mk.injEq, List.cons_append] at hi ⊢; obtain ⟨rfl, rfl⟩ := hi; exact ⟨rfl, rfl⟩

theorem opcode_append {p} {bs : List Byte} {i r} (rest : List Byte) (h : opcode p bs = some (i, r)) :
    opcode p (bs ++ rest) = some (i, r ++ rest) := by
  cases bs with
  | nil => cases h
  | cons b bs =>
    simp only [opcode, List.cons_append] at h ⊢
    split at h <;> rename_i h1
    · simp only [h1, if_true, Option.some.injEq, Prod.mk.injEq] at h ⊢; obtain ⟨rfl, rfl⟩ := h; exact ⟨rfl, rfl⟩
    rw [if_neg h1]
    split at h <;> rename_i h2
    · rw [if_pos h2]; exact group1_append rest h
    rw [if_neg h2]
    split at h <;> rename_i h3
    · rw [if_pos h3]; exact group1_append rest h
    rw [if_neg h3]
    split at h <;> rename_i h4
    · rw [if_pos h4]; exact group1_append rest h
    rw [if_neg h4]
    split at h <;> rename_i h5
    · rw [if_pos h5]
      split at h <;> rename_i h6
      · exact withModRM_append rest h
      · exact withModRM_append rest h
      · exact withModRM_append rest h
      · exact withModRM_append rest h
      · simp only [Option.map_eq_some_iff, Prod.mk.injEq, Prod.exists] at h ⊢
        obtain ⟨v, r', hr, rfl, rfl⟩ := h
        exact ⟨v, r' ++ rest, immediate_append rest hr, rfl, rfl⟩
      · simp only [Option.map_eq_some_iff, Prod.mk.injEq, Prod.exists] at h ⊢
        obtain ⟨v, r', hr, rfl, rfl⟩ := h
        exact ⟨v, r' ++ rest, immediate_append rest hr, rfl, rfl⟩
      · cases h
    · cases h

theorem decode_append {bs : List Byte} {i r} (rest : List Byte) (h : decode bs = some (i, r)) : decode (bs ++ rest) = some (i, r ++ rest) := by
  unfold decode at h ⊢
  have hne : (prefixes false bs).2 ≠ [] := by
    intro h0; rw [h0] at h; cases h
  rw [prefixes_append _ _ _ hne]
  exact opcode_append rest h

/-! ### Checking a call -/

/-- The instruction alone. -/
def Alone (c : Call) : Prop := ∃ bs, emit c = some bs ∧ decode bs = some (meaning c, [])

theorem correct_iff (c : Call) : Correct c ↔ Alone c := by
  constructor
  · rintro ⟨bs, h, hd⟩
    exact ⟨bs, h, by simpa using hd []⟩
  · rintro ⟨bs, h, hd⟩
    exact ⟨bs, h, fun rest => by simpa using decode_append rest hd⟩

/-- The instruction alone, to be evaluated. -/
def aloneB (c : Call) : Bool := match emit c with | none => false | some bs => decide (decode bs = some (meaning c, []))

theorem aloneB_iff (c : Call) : aloneB c = true ↔ Alone c := by
  unfold aloneB Alone
  cases emit c <;> simp

theorem byte_cases (d : Byte) (h : d.toNat < 8) : ∃ k : Fin 8, d = BitVec.ofNat 8 k.1 := ⟨⟨d.toNat, h⟩, by simp⟩

def allOps : List Op := [.add, .or, .adc, .and, .xor]
def allWidths : List Width := [.b, .w, .d, .q]
theorem mem_allOps (o : Op) : o ∈ allOps := by cases o <;> decide
theorem mem_allWidths (w : Width) : w ∈ allWidths := by cases w <;> decide

theorem rr_table : ∀ o ∈ allOps, ∀ w ∈ allWidths, ∀ d s : Fin 8,
    aloneB (.rr o w (BitVec.ofNat 8 d.1) (BitVec.ofNat 8 s.1)) = right (.rr o w (BitVec.ofNat 8 d.1) (BitVec.ofNat 8 s.1)) := by decide +kernel
theorem rm_table : ∀ o ∈ allOps, ∀ w ∈ allWidths, ∀ d s : Fin 8,
    aloneB (.rm o w (BitVec.ofNat 8 d.1) (BitVec.ofNat 8 s.1)) = right (.rm o w (BitVec.ofNat 8 d.1) (BitVec.ofNat 8 s.1)) := by decide +kernel
theorem mr_table : ∀ o ∈ allOps, ∀ w ∈ allWidths, ∀ d s : Fin 8,
    aloneB (.mr o w (BitVec.ofNat 8 d.1) (BitVec.ofNat 8 s.1)) = right (.mr o w (BitVec.ofNat 8 d.1) (BitVec.ofNat 8 s.1)) := by decide +kernel

theorem read16_le (v : BitVec 16) (rest : List Byte) : read16 (le16 v ++ rest) = some (v, rest) := by
  have : (v >>> 8).setWidth 8 ++ v.setWidth 8 = v := by
    apply BitVec.eq_of_getLsbD_eq
    intro i hi
    simp only [BitVec.getLsbD_append, BitVec.getLsbD_setWidth, BitVec.getLsbD_ushiftRight]
    interval_cases i <;> simp [-BitVec.getLsbD_eq_getElem]
  show some (_, rest) = some (v, rest)
  rw [this]

theorem read32_le (v : BitVec 32) (rest : List Byte) : read32 (le32 v ++ rest) = some (v, rest) := by
  have : (v >>> 24).setWidth 8 ++ (v >>> 16).setWidth 8 ++ (v >>> 8).setWidth 8 ++ v.setWidth 8 = v := by
    apply BitVec.eq_of_getLsbD_eq
    intro i hi
    simp only [BitVec.getLsbD_append, BitVec.getLsbD_setWidth, BitVec.getLsbD_ushiftRight]
    interval_cases i <;> simp [-BitVec.getLsbD_eq_getElem]
  show some (_, rest) = some (v, rest)
  rw [this]

theorem dec80 (rest : List Byte) : decode (0x80 :: rest) = group1 ⟨false, none⟩ .b false rest := by simp [decode, prefixes, opcode]
theorem dec81 (rest : List Byte) : decode (0x81 :: rest) = group1 ⟨false, none⟩ .d false rest := by
  simp [decode, prefixes, opcode, Prefixes.width, Prefixes.W]
theorem dec6681 (rest : List Byte) : decode (0x66 :: 0x81 :: rest) = group1 ⟨true, none⟩ .w false rest := by
  simp [decode, prefixes, opcode, Prefixes.width, Prefixes.W]
theorem dec4881 (rest : List Byte) : decode (0x48 :: 0x81 :: rest) = group1 ⟨false, some (true, false, false, false)⟩ .q false rest := by
  simp [decode, prefixes, opcode, Prefixes.width, Prefixes.W]

/-- The number of an operation in the opcode map. -/
def opNum : Op → Nat
  | .add => 0 | .or => 1 | .adc => 2 | .and => 4 | .xor => 6

theorem aluOf_opNum (o : Op) : aluOf (opNum o) = aluOp o := by cases o <;> rfl

theorem dec_al (o : Op) (v : Byte) : decode (BitVec.ofNat 8 (opNum o * 8 + 4) :: [v]) = some (.alu (aluOp o) .b (.reg .b 0) (.imm (v.setWidth 64)), []) := by
  cases o <;> simp [decode, prefixes, opcode, opNum, immediate, aluOf, aluOp]
theorem dec_ax (o : Op) (v : BitVec 16) : decode (0x66 :: BitVec.ofNat 8 (opNum o * 8 + 5) :: le16 v) = some (.alu (aluOp o) .w (.reg .w 0) (.imm (v.setWidth 64)), []) := by
  have := read16_le v []
  rw [List.append_nil] at this
  cases o <;> simp [decode, prefixes, opcode, opNum, immediate, aluOf, aluOp, Prefixes.width, Prefixes.W, this]
theorem dec_eax (o : Op) (v : BitVec 32) : decode (BitVec.ofNat 8 (opNum o * 8 + 5) :: le32 v) = some (.alu (aluOp o) .d (.reg .d 0) (.imm (v.setWidth 64)), []) := by
  have := read32_le v []
  rw [List.append_nil] at this
  cases o <;> simp [decode, prefixes, opcode, opNum, immediate, aluOf, aluOp, Prefixes.width, Prefixes.W, this]

/-- The ModRM byte of group 1 with a register. -/
def regByte (o : Op) (d : Byte) : Byte := BitVec.ofNat 8 (0xC0 + opNum o * 8) ||| d
/-- The ModRM byte of group 1 with memory. -/
def memByte (o : Op) (d : Byte) : Byte := BitVec.ofNat 8 (opNum o * 8) ||| (d &&& 7)

theorem regByte_fields : ∀ o ∈ allOps, ∀ d : Fin 8, (regByte o (BitVec.ofNat 8 d.1)).toNat / 64 = 3 ∧
    (regByte o (BitVec.ofNat 8 d.1)).toNat % 8 = d.1 ∧ (regByte o (BitVec.ofNat 8 d.1)).toNat / 8 % 8 = opNum o := by decide +kernel
theorem memByte_fields : ∀ o ∈ allOps, ∀ d : Fin 8, (memByte o (BitVec.ofNat 8 d.1)).toNat / 64 = 0 ∧
    (memByte o (BitVec.ofNat 8 d.1)).toNat % 8 = d.1 ∧ (memByte o (BitVec.ofNat 8 d.1)).toNat / 8 % 8 = opNum o := by decide +kernel

theorem group1_reg (p : Prefixes) (w : Width) (o : Op) (d : Fin 8) (rest : List Byte) (hp : p.rex = none) :
    group1 p w false (regByte o (BitVec.ofNat 8 d.1) :: rest) = (immediate w rest).map fun (i, rest) => (.alu (aluOp o) w (.reg w d.1) i, rest) := by
  obtain ⟨h1, h2, h3⟩ := regByte_fields o (mem_allOps o) d
  simp [group1, h1, h2, h3, rmOperand, Prefixes.register, hp, Prefixes.B, aluOf_opNum]

theorem group1_mem (p : Prefixes) (w : Width) (o : Op) (d : Fin 8) (rest : List Byte) (hp : p.B = 0) (h4 : d.1 ≠ 4) (h5 : d.1 ≠ 5) :
    group1 p w false (memByte o (BitVec.ofNat 8 d.1) :: rest) = (immediate w rest).map fun (i, rest) => (.alu (aluOp o) w (.mem d.1) i, rest) := by
  obtain ⟨h1, h2, h3⟩ := memByte_fields o (mem_allOps o) d
  simp [group1, h1, h2, h3, rmOperand, hp, aluOf_opNum, h4, h5]

theorem immediate_le8 (v : BitVec 8) : immediate .b [v] = some (.imm (v.setWidth 64), []) := rfl
theorem immediate_le16 (v : BitVec 16) : immediate .w (le16 v) = some (.imm (v.setWidth 64), []) := by
  have := read16_le v []
  rw [List.append_nil] at this
  simp [immediate, this]
theorem immediate_le32 (v : BitVec 32) : immediate .d (le32 v) = some (.imm (v.setWidth 64), []) := by
  have := read32_le v []
  rw [List.append_nil] at this
  simp [immediate, this]

theorem zero_or (d : Fin 8) : d = 0 ∨ ((BitVec.ofNat 8 d.1 : Byte) == 0) = false := by revert d; decide
theorem ofNat_toNat8 (d : Fin 8) : (BitVec.ofNat 8 d.1 : Byte).toNat = d.1 := by revert d; decide

theorem ri8_alone (o : Op) (d : Fin 8) (v : BitVec 8) : Alone (.ri8 o (BitVec.ofNat 8 d.1) v) := by
  refine ⟨_, rfl, ?_⟩
  rw [meaning, ofNat_toNat8]
  rcases zero_or d with rfl | hd
  · rw [show emitRI8 o (BitVec.ofNat 8 (0 : Fin 8).1) v = BitVec.ofNat 8 (opNum o * 8 + 4) :: [v] by cases o <;> rfl]
    exact dec_al o v
  · rw [show emitRI8 o (BitVec.ofNat 8 d.1) v = 0x80 :: regByte o (BitVec.ofNat 8 d.1) :: [v] by cases o <;> simp only [emitRI8, hd] <;> rfl]
    rw [dec80, group1_reg _ _ _ _ _ rfl, immediate_le8]; rfl

theorem ri16_alone (o : Op) (d : Fin 8) (v : BitVec 16) : Alone (.ri16 o (BitVec.ofNat 8 d.1) v) := by
  refine ⟨_, rfl, ?_⟩
  rw [meaning, ofNat_toNat8]
  rcases zero_or d with rfl | hd
  · rw [show emitRI16 o (BitVec.ofNat 8 (0 : Fin 8).1) v = 0x66 :: BitVec.ofNat 8 (opNum o * 8 + 5) :: le16 v by cases o <;> rfl]
    exact dec_ax o v
  · rw [show emitRI16 o (BitVec.ofNat 8 d.1) v = 0x66 :: 0x81 :: regByte o (BitVec.ofNat 8 d.1) :: le16 v by cases o <;> simp only [emitRI16, hd] <;> rfl]
    rw [dec6681, group1_reg _ _ _ _ _ rfl, immediate_le16]; rfl

theorem ri32_alone (o : Op) (d : Fin 8) (v : BitVec 32) (h : o ≠ .adc ∨ d ≠ 0) : Alone (.ri32 o (BitVec.ofNat 8 d.1) v) := by
  refine ⟨_, rfl, ?_⟩
  rw [meaning, ofNat_toNat8]
  rcases zero_or d with rfl | hd
  · rw [show emitRI32 o (BitVec.ofNat 8 (0 : Fin 8).1) v = BitVec.ofNat 8 (opNum o * 8 + 5) :: le32 v by
      cases o <;> first | rfl | (simp at h)]
    exact dec_eax o v
  · rw [show emitRI32 o (BitVec.ofNat 8 d.1) v = 0x81 :: regByte o (BitVec.ofNat 8 d.1) :: le32 v by cases o <;> simp only [emitRI32, hd] <;> rfl]
    rw [dec81, group1_reg _ _ _ _ _ rfl, immediate_le32]; rfl

/-- `AddWithCarry(EAX, Imm32)` is an `ADD`. -/
theorem ri32_adc (v : BitVec 32) : decode (emitRI32 .adc 0 v) = some (.alu .add .d (.reg .d 0) (.imm (v.setWidth 64)), []) := dec_eax .add v

theorem optB_nil (d : Fin 8) : optB (BitVec.ofNat 8 d.1) = [] := by revert d; decide

theorem plain_iff (d : Fin 8) : plainBase (BitVec.ofNat 8 d.1) = true ↔ d.1 ≠ 4 ∧ d.1 ≠ 5 := by revert d; decide

theorem group1_bad (p : Prefixes) (w : Width) (o : Op) (d : Fin 8) (rest : List Byte) (h : d.1 = 4 ∨ d.1 = 5) (i r op w' s k)
    (hd : group1 p w false (memByte o (BitVec.ofNat 8 d.1) :: rest) = some (i, r)) : i ≠ .alu op w' (.mem k) s := by
  obtain ⟨h1, h2, h3⟩ := memByte_fields o (mem_allOps o) d
  simp only [group1, h1, h2, h3, rmOperand, Option.bind_eq_some_iff, Prod.exists, Bool.false_eq_true, if_false, Option.map_eq_some_iff, Prod.mk.injEq] at hd
  obtain ⟨a, b, ha, c, e, hc, rfl, rfl⟩ := hd
  intro hi
  simp only [Instr.alu.injEq] at hi
  rcases h with h | h
  · simp only [h, if_true] at ha
    cases rest with
    | nil => simp at ha
    | cons s' rest =>
      simp only at ha
      split at ha
      · omega
      · split at ha
        · cases ha
        · simp only [Option.some.injEq, Prod.mk.injEq] at ha
          rw [← ha.1] at hi; simp at hi
  · simp only [h] at ha
    simp at ha
    obtain ⟨d', hr, rfl⟩ := ha
    simp at hi

theorem mi8_alone (o : Op) (d : Fin 8) (v : BitVec 8) : Alone (.mi8 o (BitVec.ofNat 8 d.1) v) ↔ plainBase (BitVec.ofNat 8 d.1) = true := by
  have he : emit (.mi8 o (BitVec.ofNat 8 d.1) v) = some (0x80 :: memByte o (BitVec.ofNat 8 d.1) :: [v]) := by
    cases o <;> simp only [emit, emitMI8, optB_nil] <;> rfl
  simp only [Alone, he, Option.some.injEq, exists_eq_left', meaning, ofNat_toNat8, dec80, plain_iff]
  constructor
  · intro h
    by_cases h45 : d.1 = 4 ∨ d.1 = 5
    · exact absurd rfl (group1_bad _ _ _ _ _ h45 _ _ _ _ _ _ h)
    · omega
  · rintro ⟨h4, h5⟩
    rw [group1_mem _ _ _ _ _ rfl h4 h5, immediate_le8]; rfl

theorem mi16_alone (o : Op) (d : Fin 8) (v : BitVec 16) : Alone (.mi16 o (BitVec.ofNat 8 d.1) v) ↔
    o ≠ .adc ∧ o ≠ .add ∧ plainBase (BitVec.ofNat 8 d.1) = true := by
  by_cases h1 : o = .adc
  · subst h1; simp [Alone, emit, emitMI16]
  by_cases h2 : o = .add
  · subst h2; simp [Alone, emit, emitMI16]
  have he : emit (.mi16 o (BitVec.ofNat 8 d.1) v) = some (0x66 :: 0x81 :: memByte o (BitVec.ofNat 8 d.1) :: le16 v) := by
    cases o <;> simp only [emit, emitMI16, optB_nil] <;> first | rfl | contradiction
  simp only [Alone, he, Option.some.injEq, exists_eq_left', meaning, ofNat_toNat8, dec6681, plain_iff]
  constructor
  · intro h
    by_cases h45 : d.1 = 4 ∨ d.1 = 5
    · exact absurd rfl (group1_bad _ _ _ _ _ h45 _ _ _ _ _ _ h)
    · exact ⟨h1, h2, by omega⟩
  · rintro ⟨_, _, h4, h5⟩
    rw [group1_mem _ _ _ _ _ rfl h4 h5, immediate_le16]; rfl

theorem group1_width (p : Prefixes) (w : Width) (bs : List Byte) (i r op w' a b) (hw : w ≠ w')
    (hd : group1 p w false bs = some (i, r)) : i ≠ .alu op w' a b := by
  cases bs with
  | nil => cases hd
  | cons m bs =>
    simp only [group1, Option.bind_eq_some_iff, Prod.exists, Bool.false_eq_true, if_false, Option.map_eq_some_iff, Prod.mk.injEq] at hd
    obtain ⟨_, _, _, _, _, _, rfl, _⟩ := hd
    intro h
    simp only [Instr.alu.injEq] at h
    exact hw h.2.1

theorem mi32_alone (o : Op) (d : Fin 8) (v : BitVec 32) : Alone (.mi32 o (BitVec.ofNat 8 d.1) v) ↔
    o ≠ .adc ∧ o ≠ .add ∧ plainBase (BitVec.ofNat 8 d.1) = true := by
  by_cases h12 : o = .adc ∨ o = .add
  · have he : emit (.mi32 o (BitVec.ofNat 8 d.1) v) = some (0x48 :: 0x81 :: memByte o (BitVec.ofNat 8 d.1) :: le32 v) := by
      have hd : ¬ 8 ≤ (BitVec.ofNat 8 d.1 : Byte).toNat := by rw [ofNat_toNat8]; omega
      rcases h12 with rfl | rfl <;> simp only [emit, emitMI32, hd, if_false] <;> rfl
    simp only [Alone, he, Option.some.injEq, exists_eq_left', meaning, dec4881]
    constructor
    · intro h; exact absurd rfl (group1_width _ _ _ _ _ _ _ _ _ (by decide) h)
    · rintro ⟨h1, h2, _⟩; rcases h12 with h | h; exact absurd h h1; exact absurd h h2
  · simp only [not_or] at h12
    have he : emit (.mi32 o (BitVec.ofNat 8 d.1) v) = some (0x81 :: memByte o (BitVec.ofNat 8 d.1) :: le32 v) := by
      cases o <;> simp only [emit, emitMI32, optB_nil] <;> first | rfl | (exact absurd rfl h12.1) | (exact absurd rfl h12.2)
    simp only [Alone, he, Option.some.injEq, exists_eq_left', meaning, ofNat_toNat8, dec81, plain_iff]
    constructor
    · intro h
      by_cases h45 : d.1 = 4 ∨ d.1 = 5
      · exact absurd rfl (group1_bad _ _ _ _ _ h45 _ _ _ _ _ _ h)
      · exact ⟨h12.1, h12.2, by omega⟩
    · rintro ⟨_, _, h4, h5⟩
      rw [group1_mem _ _ _ _ _ rfl h4 h5, immediate_le32]; rfl

theorem call_iff (c : Call) (h : named c = true) : Alone c ↔ right c = true := by
  cases c with
  | rr o w d s =>
    simp only [named, Bool.and_eq_true, decide_eq_true_eq] at h
    obtain ⟨d, rfl⟩ := byte_cases d h.1
    obtain ⟨s, rfl⟩ := byte_cases s h.2
    rw [← aloneB_iff, rr_table o (mem_allOps o) w (mem_allWidths w)]
  | rm o w d s =>
    simp only [named, Bool.and_eq_true, decide_eq_true_eq] at h
    obtain ⟨d, rfl⟩ := byte_cases d h.1
    obtain ⟨s, rfl⟩ := byte_cases s h.2
    rw [← aloneB_iff, rm_table o (mem_allOps o) w (mem_allWidths w)]
  | mr o w d s =>
    simp only [named, Bool.and_eq_true, decide_eq_true_eq] at h
    obtain ⟨d, rfl⟩ := byte_cases d h.1
    obtain ⟨s, rfl⟩ := byte_cases s h.2
    rw [← aloneB_iff, mr_table o (mem_allOps o) w (mem_allWidths w)]
  | ri8 o d v =>
    simp only [named, decide_eq_true_eq] at h
    obtain ⟨d, rfl⟩ := byte_cases d h
    exact iff_of_true (ri8_alone o d v) (by cases o <;> rfl)
  | ri16 o d v =>
    simp only [named, decide_eq_true_eq] at h
    obtain ⟨d, rfl⟩ := byte_cases d h
    exact iff_of_true (ri16_alone o d v) (by cases o <;> rfl)
  | ri32 o d v =>
    simp only [named, decide_eq_true_eq] at h
    obtain ⟨d, rfl⟩ := byte_cases d h
    by_cases hc : o ≠ .adc ∨ d ≠ 0
    · refine iff_of_true (ri32_alone o d v hc) ?_
      have : ∀ d : Fin 8, d ≠ 0 → ((BitVec.ofNat 8 d.1 : Byte) != 0) = true := by decide
      cases o <;> first | rfl | (exact this d (by simpa using hc))
    · simp only [not_or, not_not] at hc
      obtain ⟨rfl, rfl⟩ := hc
      refine iff_of_false ?_ (by simp [right])
      rintro ⟨bs, he, hd⟩
      simp only [emit, Option.some.injEq] at he
      rw [← he, show (BitVec.ofNat 8 (0 : Fin 8).1 : Byte) = 0 from rfl, ri32_adc] at hd
      simp [meaning, aluOp] at hd
  | mi8 o d v =>
    simp only [named, decide_eq_true_eq] at h
    obtain ⟨d, rfl⟩ := byte_cases d h
    rw [mi8_alone]; cases o <;> rfl
  | mi16 o d v =>
    simp only [named, decide_eq_true_eq] at h
    obtain ⟨d, rfl⟩ := byte_cases d h
    rw [mi16_alone]; cases o <;> simp [right]
  | mi32 o d v =>
    simp only [named, decide_eq_true_eq] at h
    obtain ⟨d, rfl⟩ := byte_cases d h
    rw [mi32_alone]; cases o <;> simp [right]
  | ret => exact iff_of_true ⟨_, rfl, rfl⟩ rfl

end Verif.Amd64
