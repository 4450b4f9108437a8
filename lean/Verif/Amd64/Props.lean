/-
C35: the AMD64 assembler against the instruction format (Spec.lean).
-/
import Verif.Amd64.Lemmas
namespace Verif.Amd64
open Spec

/-- C35, the part that holds: for the calls of `Spec.right`, whatever the named registers and the immediates, the emitted bytes are exactly one instruction, the one
asked for, with that destination and source. Missing: the other calls, which `call_correct_fails` shows to be wrong for all operands. -/
theorem call_correct_partial (c : Call) (hn : named c = true) (hr : right c = true) : Correct c :=
  (correct_iff c).mpr ((call_iff c hn).mpr hr)

example : named (.rr .xor .q 3 6) = true ∧ right (.rr .xor .q 3 6) = true ∧ emit (.rr .xor .q 3 6) = some [0x48, 0x31, 0xF3] := by decide
example : named (.ri32 .adc 2 0xDEADBEEF) = true ∧ right (.ri32 .adc 2 0xDEADBEEF) = true ∧
    emit (.ri32 .adc 2 0xDEADBEEF) = some [0x81, 0xD2, 0xEF, 0xBE, 0xAD, 0xDE] := by decide

/-- C35 fails for every other call: the bytes do not decode to what was asked for, or the call panics. These are: `AddWithCarry` of two different registers
and of `EAX` with an immediate, register-memory forms of all but `AddWithCarry`, memory-register forms of the bitwise functions,
`MemoryAddWithCarry` with 16- and 32-bit immediates, and any address in `RSP` or `RBP`. -/
theorem call_correct_fails (c : Call) (hn : named c = true) (hr : right c = false) : ¬ Correct c := by
  rw [correct_iff, call_iff c hn, hr]; simp

example : named (.rr .adc .d 0 3) = true ∧ right (.rr .adc .d 0 3) = false ∧ exported (.rr .adc .d 0 3) = true := by decide

/-- What the wrong instructions do: `AddWithCarry(dst, src)` changes `src` instead of `dst`. -/
theorem adc_swaps_operands (w : Width) (d s : Fin 8) : ∃ bs, emit (.rr .adc w (BitVec.ofNat 8 d.1) (BitVec.ofNat 8 s.1)) = some bs ∧
    ∀ rest, decode (bs ++ rest) = some (.alu .adc w (.reg w s.1) (.reg w d.1), rest) := by
  have : ∀ w ∈ allWidths, ∀ d s : Fin 8, decode (emitRR .adc w (BitVec.ofNat 8 d.1) (BitVec.ofNat 8 s.1)) =
      some (.alu .adc w (.reg w s.1) (.reg w d.1), []) := by decide +kernel
  exact ⟨_, rfl, fun rest => by simpa using decode_append rest (this w (mem_allWidths w) d s)⟩

/-- `AddWithCarry(EAX, v)` ignores the carry: it is an `ADD`. -/
theorem adc_eax_is_add (v : BitVec 32) (rest : List Byte) : ∃ bs, emit (.ri32 .adc 0 v) = some bs ∧
    decode (bs ++ rest) = some (.alu .add .d (.reg .d 0) (.imm (v.setWidth 64)), rest) :=
  ⟨_, rfl, by simpa using decode_append rest (ri32_adc v)⟩

/-- `Add(dst, memory)` stores into memory: it adds the register with the pointer's number to the memory at the register with the destination's number. -/
theorem add_memory_stores (w : Width) (d s : Fin 8) (hd : d.1 ≠ 4 ∧ d.1 ≠ 5) : ∃ bs, emit (.rm .add w (BitVec.ofNat 8 d.1) (BitVec.ofNat 8 s.1)) = some bs ∧
    ∀ rest, decode (bs ++ rest) = some (.alu .add w (.mem d.1) (.reg w s.1), rest) := by
  have : ∀ w ∈ allWidths, ∀ d s : Fin 8, d.1 ≠ 4 ∧ d.1 ≠ 5 → ((emitRM .add w (BitVec.ofNat 8 d.1) (BitVec.ofNat 8 s.1)).bind decode) =
      some (.alu .add w (.mem d.1) (.reg w s.1), []) := by decide +kernel
  have h := this w (mem_allWidths w) d s hd
  cases he : emitRM .add w (BitVec.ofNat 8 d.1) (BitVec.ofNat 8 s.1) with
  | none => rw [he] at h; cases h
  | some bs =>
    rw [he] at h
    exact ⟨bs, he, fun rest => by simpa using decode_append rest h⟩

example : emit (.rm .add .d 0 3) = some [0x01, 0x18] := by decide

/-- `BitwiseAnd`, `BitwiseOr` and `BitwiseXor` of a register with memory panic, and so does `MemoryAddWithCarry` with 16 immediate bits, although the types allow them. -/
theorem allowed_calls_panic (o : Op) (ho : o = .and ∨ o = .or ∨ o = .xor) (w : Width) (d s : Byte) (v : BitVec 16) :
    emit (.rm o w d s) = none ∧ emit (.mi16 .adc d v) = none := by
  rcases ho with rfl | rfl | rfl <;> cases w <;> exact ⟨rfl, rfl⟩

/-- `MemoryAddWithCarry` with 32 immediate bits changes eight bytes of memory instead of four. -/
theorem adc_memory_writes_eight (d : Fin 8) (hd : d.1 ≠ 4 ∧ d.1 ≠ 5) (v : BitVec 32) (rest : List Byte) : ∃ bs, emit (.mi32 .adc (BitVec.ofNat 8 d.1) v) = some bs ∧
    decode (bs ++ rest) = some (.alu .adc .q (.mem d.1) (.imm (v.signExtend 64)), rest) := by
  refine ⟨_, rfl, ?_⟩
  have he : emitMI32 .adc (BitVec.ofNat 8 d.1) v = 0x48 :: 0x81 :: memByte .adc (BitVec.ofNat 8 d.1) :: le32 v := by
    have hd : ¬ 8 ≤ (BitVec.ofNat 8 d.1 : Byte).toNat := by rw [ofNat_toNat8]; omega
    simp only [emitMI32, hd, if_false]; rfl
  have hv := read32_le v []
  rw [List.append_nil] at hv
  have h : decode (emitMI32 .adc (BitVec.ofNat 8 d.1) v) = some (.alu .adc .q (.mem d.1) (.imm (v.signExtend 64)), []) := by
    rw [he, dec4881, group1_mem _ _ _ _ _ rfl hd.1 hd.2]
    simp [immediate, hv, aluOp]
  simpa using decode_append rest h

example : (2 : Fin 8).1 ≠ 4 ∧ (2 : Fin 8).1 ≠ 5 := by decide

/-- The registers `R8` to `R15` (which the package does not name, but a conversion makes): the two-register forms other than `AddWithCarry` are right exactly when both
or neither of the registers is among them. -/
theorem extended_registers (o : Op) (ho : o ≠ .adc) (d s : Fin 16) :
    Correct (.rr o .q (BitVec.ofNat 8 d.1) (BitVec.ofNat 8 s.1)) ↔ (8 ≤ d.1 ↔ 8 ≤ s.1) := by
  have : ∀ o ∈ allOps, o ≠ .adc → ∀ d s : Fin 16, aloneB (.rr o .q (BitVec.ofNat 8 d.1) (BitVec.ofNat 8 s.1)) = true ↔ (8 ≤ d.1 ↔ 8 ≤ s.1) := by
    decide +kernel
  rw [correct_iff, ← aloneB_iff]
  exact this o (mem_allOps o) ho d s

example : ¬ Correct (.rr .add .q 8 1) := by
  have := extended_registers .add (by decide) 8 1
  rw [show (BitVec.ofNat 8 (8 : Fin 16).1 : Byte) = 8 from rfl, show (BitVec.ofNat 8 (1 : Fin 16).1 : Byte) = 1 from rfl] at this
  rw [this]; decide

/-- All the instructions of some bytes. -/
def decodeAll : Nat → List Byte → Option (List Instr)
  | _, [] => some []
  | 0, _ => none
  | n + 1, bs => match decode bs with
    | none => none
    | some (i, rest) => (decodeAll n rest).map (i :: ·)

/-- C35 for whole functions: the bytes of `Compile` are the instructions asked for, one after the other. -/
theorem program_correct_partial (cs : List Call) (hn : ∀ c ∈ cs, named c = true) (hr : ∀ c ∈ cs, right c = true) :
    ∃ bs, emitAll cs = some bs ∧ decodeAll cs.length bs = some (cs.map meaning) := by
  induction cs with
  | nil => exact ⟨[], rfl, rfl⟩
  | cons c cs ih =>
    obtain ⟨bs, he, hd⟩ := ih (fun c hc => hn c (by simp [hc])) (fun c hc => hr c (by simp [hc]))
    obtain ⟨b, hb, hbd⟩ := call_correct_partial c (hn c (by simp)) (hr c (by simp))
    refine ⟨b ++ bs, by simp [emitAll, hb, he], ?_⟩
    have hne : b ≠ [] := by
      rintro rfl
      have := hbd []
      simp [decode, prefixes, opcode] at this
    cases hbb : b ++ bs with
    | nil => simp at hbb; exact absurd hbb.1 hne
    | cons x xs =>
      rw [List.length_cons, decodeAll, ← hbb, hbd bs]
      · simp [hd]
      · simp

example : emitAll [.rr .add .d 0 3, .ret] = some [0x01, 0xD8, 0xC3] := by decide

end Verif.Amd64
