/-
C33 and C34: the ARM64 assembler against the architecture manual (Spec.lean).
-/
import Verif.Arm64.Disasm
import Verif.Arm64.BitLemmas
namespace Verif.Arm64
open Spec

/-! ### C33: bit-pattern immediates -/

/-- C33, the part that holds: whenever the encoder answers with `n = 1`, `DecodeBitMasks` gives the immediate back. Missing: the answers with
`n = 0` (a pattern that repeats every 2, 4, 8, 16 or 32 bits), see `encode_fails`. -/
theorem encode_sound_partial (imm : BitVec 64) (immr imms : Nat) (h : encode imm = some (1, immr, imms)) :
    immr < 64 ∧ imms < 64 ∧ decodeBitMasks 1 (BitVec.ofNat 6 immr) (BitVec.ofNat 6 imms) = some imm := by
  have hb := encode_bounds h
  obtain ⟨_, hv, E, hE, hen⟩ := encode_some h
  refine ⟨hb.2.1, hb.2.2, ?_⟩
  rcases sizes_mem hE with rfl | ⟨e, rfl⟩
  · exact (sound64 hv hen).2
  · exact absurd (small_n e hen) (by decide)

example : encode 0x00FF000000000000 = some (1, 16, 7) := by decide +kernel

/-- C33: exactly the immediates the architecture can hold are accepted; every other one is refused with an error. -/
theorem encode_accepts_iff (imm : BitVec 64) : (encode imm).isSome ↔ IsLogicalImmediate imm := ⟨accepted_imm, accepts⟩

example : IsLogicalImmediate 0x5555555555555555 := ⟨0, 0, 0b111100, by decide +kernel⟩
example : ¬ IsLogicalImmediate 0x5 := by rw [← encode_accepts_iff]; decide +kernel

/-- C33 does not hold in general: the pattern `0101…01` is accepted, and the fields stand for `0x0000000100000001`. -/
theorem encode_fails : ∃ imm n immr imms, encode imm = some (n, immr, imms) ∧
    ∃ other, decodeBitMasks (BitVec.ofNat 1 n) (BitVec.ofNat 6 immr) (BitVec.ofNat 6 imms) = some other ∧ other ≠ imm :=
  ⟨0x5555555555555555, 0, 0, 0, by decide +kernel, 0x0000000100000001, by decide +kernel, by decide⟩

theorem andImm_word (d n : BitVec 5) (val : BitVec 64) (e : Nat × Nat × Nat) (h : encode val = some e) :
    word (.andImmediate (r d) (r n) val) = some (andDiagram 0b00 (BitVec.ofNat 1 e.1) (BitVec.ofNat 6 e.2.1) (BitVec.ofNat 6 e.2.2) n d) ∧
    word (.andsImmediate (r d) (r n) val) = some (andDiagram 0b11 (BitVec.ofNat 1 e.1) (BitVec.ofNat 6 e.2.1) (BitVec.ofNat 6 e.2.2) n d) := by
  obtain ⟨n', r', s'⟩ := e
  have hb := encode_bounds h
  have hn : BitVec.ofNat 32 n' = (BitVec.ofNat 1 n').setWidth 32 := by
    apply BitVec.eq_of_toNat_eq; simp; omega
  have hr : BitVec.ofNat 32 r' = (BitVec.ofNat 6 r').setWidth 32 := by
    apply BitVec.eq_of_toNat_eq; simp; omega
  have hs : BitVec.ofNat 32 s' = (BitVec.ofNat 6 s').setWidth 32 := by
    apply BitVec.eq_of_toNat_eq; simp; omega
  simp only [word, andImm, h, Option.map_some, hn, hr, hs, andDiagram]
  generalize BitVec.ofNat 1 n' = N
  generalize BitVec.ofNat 6 r' = R
  generalize BitVec.ofNat 6 s' = S
  constructor <;> bitwise

/-- C33 and C34: `AND` and `ANDS` with an immediate return an error exactly for the patterns the architecture cannot hold. For the others,
when the pattern does not repeat, the word is the instruction whose immediate is the pattern. Missing: the patterns that repeat,
see `and_immediate_fails`. -/
theorem and_immediate_partial (d n : BitVec 5) (val : BitVec 64) :
    (word (.andImmediate (r d) (r n) val) = none ↔ ¬ IsLogicalImmediate val) ∧
    (word (.andsImmediate (r d) (r n) val) = none ↔ ¬ IsLogicalImmediate val) ∧
    (IsLogicalImmediate val → (∀ E ∈ [2, 4, 8, 16, 32], val.rotateRight E ≠ val) → ∃ immr imms, decodeBitMasks 1 immr imms = some val ∧
      word (.andImmediate (r d) (r n) val) = some (andDiagram 0b00 1 immr imms n d) ∧
      word (.andsImmediate (r d) (r n) val) = some (andDiagram 0b11 1 immr imms n d)) := by
  refine ⟨?_, ?_, ?_⟩
  · rw [← encode_accepts_iff]
    simp [word, andImm]
  · rw [← encode_accepts_iff]
    simp [word, andImm]
  · intro hi hrep
    obtain ⟨⟨n', r', s'⟩, he⟩ := Option.isSome_iff_exists.mp ((encode_accepts_iff val).mpr hi)
    obtain ⟨_, hv, E, hE, hen⟩ := encode_some he
    rcases sizes_mem hE with rfl | ⟨e, rfl⟩
    · obtain ⟨rfl, hd⟩ := sound64 hv hen
      have hw := andImm_word d n val _ he
      exact ⟨BitVec.ofNat 6 r', BitVec.ofNat 6 s', hd, hw.1, hw.2⟩
    · exfalso
      have h64 : ((2 ^ (e.1 + 1) == 64) = true) = False := by simp; have := (mem_sizes e).2; omega
      simp only [encodeE, h64, if_false] at hen
      split at hen
      · rename_i hq
        exact hrep _ (by clear hen hq h64 hE; revert e; decide) (repeated_rotate e val (by simpa using hq))
      · cases hen

example : IsLogicalImmediate 0x00FF000000000000 ∧ ∀ E ∈ [2, 4, 8, 16, 32], (0x00FF000000000000 : BitVec 64).rotateRight E ≠ 0x00FF000000000000 := by
  refine ⟨?_, by decide⟩
  rw [← encode_accepts_iff]; decide +kernel

/-- The assembler emits an `AND` with another immediate for a pattern that repeats. -/
theorem and_immediate_fails : ∃ d n val immr imms other, word (.andImmediate (r d) (r n) val) = some (andDiagram 0b00 0 immr imms n d) ∧
    decodeBitMasks 0 immr imms = some other ∧ other ≠ val :=
  ⟨0, 1, 0x5555555555555555, 0, 0, 0x0000000100000001, (andImm_word 0 1 _ (0, 0, 0) (by decide +kernel)).1, by decide +kernel, by decide⟩

/-! ### C34: instruction words -/

/-- C34, the part that holds: for every instruction of the API outside `A.broken` and for all operands, the emitted word is the one of the
architecture's diagram: every operand in its own field and the fixed bits as they should be. Missing: the mnemonics of `A.broken`, which are
wrong for every operand, see `word_fails`; and operands outside the width of their field, see `negative_immediate_fails`. -/
theorem word_correct_partial (i : A) (h : i.broken = false) : word i.call = some i.diagram := by
  cases i with
  | abs _ _ => cases h
  | adc x0 x1 x2 => exact word_adc x0 x1 x2
  | adcs x0 x1 x2 => exact word_adcs x0 x1 x2
  | addExt x0 x1 x2 x3 x4 => exact word_addExt x0 x1 x2 x3 x4
  | addImm x0 x1 x2 => exact word_addImm x0 x1 x2
  | addSh x0 x1 x2 x3 x4 => exact word_addSh x0 x1 x2 x3 x4
  | addg _ _ _ _ => cases h
  | addpt _ _ _ _ => cases h
  | addsExt x0 x1 x2 x3 x4 => exact word_addsExt x0 x1 x2 x3 x4
  | addsImm x0 x1 x2 => exact word_addsImm x0 x1 x2
  | addsSh x0 x1 x2 x3 x4 => exact word_addsSh x0 x1 x2 x3 x4
  | adr x0 x1 => exact word_adr x0 x1
  | adrp x0 x1 => exact word_adrp x0 x1
  | andSh x0 x1 x2 x3 x4 => exact word_andSh x0 x1 x2 x3 x4
  | andsSh x0 x1 x2 x3 x4 => exact word_andsSh x0 x1 x2 x3 x4
  | apas x0 => exact word_apas x0
  | asrImm x0 x1 x2 => exact word_asrImm x0 x1 x2
  | asrv x0 x1 x2 => exact word_asrv x0 x1 x2
  | at_ t op => exact word_at_ t op (by rintro rfl; cases h)
  | autda x0 x1 => exact word_autda x0 x1
  | autdza _ => cases h
  | autdb x0 x1 => exact word_autdb x0 x1
  | autdzb _ => cases h
  | autia x0 x1 => exact word_autia x0 x1
  | autiza _ => cases h
  | autiaz => exact word_autiaz
  | autiasp => exact word_autiasp
  | autia1716 => cases h
  | autia171615 => exact word_autia171615
  | autiasppc _ => cases h
  | autiasppcr x0 => exact word_autiasppcr x0
  | autib x0 x1 => exact word_autib x0 x1
  | autizb x0 => exact word_autizb x0
  | autibz => cases h
  | autib1716 => cases h
  | autibsp => cases h
  | autib171615 => exact word_autib171615
  | autibsppc _ => cases h
  | autibsppcr x0 => exact word_autibsppcr x0
  | axflag => exact word_axflag
  | cmp _ _ _ _ => cases h
  | cset x0 x1 => exact word_cset x0 x1
  | ret x0 => exact word_ret x0

example : (A.addSh 3 4 5 1 7).broken = false ∧ word (A.addSh 3 4 5 1 7).call = some 0x8B451C83 := by decide +kernel

/-- C34 fails for these mnemonics, whatever the operands: `ABS` (emits the 32-bit form), `ADDG`, `ADDPT` (emits `ADC`), `AUTDZA`, `AUTDZB`, `AUTIZA`,
`AUTIA1716`, `AUTIBZ`, `AUTIB1716`, `AUTIBSP`, `AUTIASPPC`, `AUTIBSPPC`, `CMP` (writes the difference to `X0`) and `AT S1E1WP`. -/
theorem word_fails (i : A) (h : i.broken = true) : word i.call ≠ some i.diagram := by
  cases i with
  | abs x0 x1 => wrongbit 31
  | adc _ _ _ => cases h
  | adcs _ _ _ => cases h
  | addExt _ _ _ _ _ => cases h
  | addImm _ _ _ => cases h
  | addSh _ _ _ _ _ => cases h
  | addg x0 x1 x2 x3 => simp only [A.call, word, imm6s_pos, imm4s_pos]; wrongbit 31
  | addpt x0 x1 x2 x3 => wrongbit 13
  | addsExt _ _ _ _ _ => cases h
  | addsImm _ _ _ => cases h
  | addsSh _ _ _ _ _ => cases h
  | adr _ _ => cases h
  | adrp _ _ => cases h
  | andSh _ _ _ _ _ => cases h
  | andsSh _ _ _ _ _ => cases h
  | apas _ => cases h
  | asrImm _ _ _ => cases h
  | asrv _ _ _ => cases h
  | at_ t op =>
    have ho : op = .s1e1wp := by cases op <;> first | rfl | cases h
    subst ho
    intro he
    rw [word_wp, word_at_ _ _ (by decide)] at he
    have := diagram_injective _ _ (by simpa using he)
    simp at this
  | autda _ _ => cases h
  | autdza x0 => wrongbit 5
  | autdb _ _ => cases h
  | autdzb x0 => wrongbit 5
  | autia _ _ => cases h
  | autiza x0 => wrongbit 5
  | autiaz => cases h
  | autiasp => cases h
  | autia1716 => decide
  | autia171615 => cases h
  | autiasppc x0 => wrongbit 31
  | autiasppcr _ => cases h
  | autib _ _ => cases h
  | autizb _ => cases h
  | autibz => decide
  | autib1716 => decide
  | autibsp => decide
  | autib171615 => cases h
  | autibsppc x0 => wrongbit 31
  | autibsppcr _ => cases h
  | axflag => cases h
  | cmp x0 x1 x2 x3 => wrongbit 0
  | cset _ _ => cases h
  | ret _ => cases h

/-- What the wrong words mean, for four of them: `CMP` is the `SUBS` that overwrites `X0`, `ADDPT` without a shift is an `ADC`, `AUTIA1716` is `AUTIAZ` and
`AT S1E1WP` is `AT S1E1R`. -/
theorem word_fails_as (d n m : BitVec 5) :
    word (A.cmp n m 0 0).call = some (1#1 ++ 1#1 ++ 1#1 ++ 0b01011#5 ++ 0b00#2 ++ 0#1 ++ m ++ 0b000000#6 ++ n ++ 0b00000#5) ∧
    word (A.addpt d n m 0).call = some (A.adc d n m).diagram ∧ word A.autia1716.call = some A.autiaz.diagram ∧
    word (A.at_ d .s1e1wp).call = some (A.at_ d .s1e1r).diagram := by
  refine ⟨?_, ?_, rfl, ?_⟩
  · bitwise
  · bitwise
  · rw [← word_at_ d .s1e1r (by decide), word_wp]

/-- C34: different instructions, or different operands, have different words. -/
theorem word_injective (i j : A) (hi : i.broken = false) (hj : j.broken = false) (h : word i.call = word j.call) : i = j := by
  rw [word_correct_partial i hi, word_correct_partial j hj] at h
  exact diagram_injective i j (by simpa using h)

example : word (A.adc 1 2 3).call ≠ word (A.adc 1 3 2).call := fun h => absurd (word_injective _ _ rfl rfl h) (by decide)

/-- C34: a negative immediate is accepted and sets the bit that shifts the immediate by 12: `ADD X0, X1, #-1` becomes `ADD X0, X1, #4095, LSL #12`. -/
theorem negative_immediate_fails : word (.addImmediate 0 1 (-1)) = some (1#1 ++ 0#1 ++ 0#1 ++ 0b100010#6 ++ 1#1 ++ 4095#12 ++ 1#5 ++ 0#5) := by
  decide +kernel

theorem fetch_bytes (w : BitVec 32) (rest : List (BitVec 8)) : fetch (bytesLE w ++ rest) = (fetch rest).map (w :: ·) := by
  have hw : (w >>> 24).setWidth 8 ++ (w >>> 16).setWidth 8 ++ (w >>> 8).setWidth 8 ++ w.setWidth 8 = w := by
    apply BitVec.eq_of_getLsbD_eq
    intro k hk
    simp only [BitVec.getLsbD_append, BitVec.getLsbD_setWidth, BitVec.getLsbD_ushiftRight]
    interval_cases k <;> simp [-BitVec.getLsbD_eq_getElem]
  simp only [bytesLE, List.cons_append, List.nil_append, fetch, hw]

/-- C34: the bytes of a program, fetched as the processor does, are the words of its instructions in order. -/
theorem assemble_fetch (is : List A) (h : ∀ i ∈ is, i.broken = false) : fetch (assemble (is.map A.call)) = some (is.map A.diagram) := by
  induction is with
  | nil => rfl
  | cons i is ih =>
    have hi := word_correct_partial i (h i (by simp))
    have ih := ih fun j hj => h j (by simp [hj])
    simp only [assemble, List.map_cons, List.flatMap_cons] at ih ⊢
    rw [hi]
    show fetch (bytesLE i.diagram ++ _) = _
    rw [fetch_bytes, ih]; rfl

example : fetch (assemble [(A.adc 0 1 2).call, (A.ret 30).call]) = some [0x9A020020, 0xD65F03C0] := by decide +kernel

end Verif.Arm64
