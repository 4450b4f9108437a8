import Verif.Vm.RegModel
import Mathlib.Logic.Basic
/-!
# C184: registers hold what is put into them
-/
namespace Verif.Vm.Reg

theorem load8_get {w n : Nat} (junk : BitVec 64) (v : BitVec w) (hn : n ≤ w) (hw : w ≤ 64) :
    (load8 junk v).setWidth n = v.setWidth n := by
  apply BitVec.eq_of_getLsbD_eq
  intro i hi
  have h1 : i < 64 := by omega
  have h2 : i < w := by omega
  simp [load8, hi, h1, h2]

theorem bits_le (k : Kind) : k.bits ≤ 64 := by cases k <;> decide

theorem setWidth_get {w n : Nat} (v : BitVec w) (hn : n ≤ w) (hw : w ≤ 64) :
    (v.setWidth 64).setWidth n = v.setWidth n := by
  apply BitVec.eq_of_getLsbD_eq
  intro i hi
  have h1 : i < 64 := by omega
  simp only [BitVec.getLsbD_setWidth, hi, h1, decide_true, Bool.true_and]

theorem signExtend_get {w n : Nat} (v : BitVec w) (hn : n ≤ w) (hw : w ≤ 64) :
    (v.signExtend 64).setWidth n = v.setWidth n := by
  apply BitVec.eq_of_getLsbD_eq
  intro i hi
  have h1 : i < 64 := by omega
  have h2 : i < w := by omega
  simp only [BitVec.getLsbD_setWidth, BitVec.getLsbD_signExtend, hi, h1, h2, decide_true, Bool.true_and, if_true]

theorem setGpr_get (junk : BitVec 64) (k : Kind) (v : BitVec k.bits) (n : Nat) (hn : n ≤ k.bits) :
    (setGpr junk k v).setWidth n = v.setWidth n := by
  cases k <;>
    first
    | exact load8_get junk v hn (by decide)
    | exact setWidth_get v hn (by decide)
    | exact signExtend_get v hn (by decide)

/-- **C184** (read back): whatever is set in a register, general or floating-point, is what the getter of the same
type returns, whatever the memory beside the argument holds. -/
theorem read_back (junk : BitVec 64) (k : Kind) (v : BitVec k.bits) :
    get k (setGpr junk k v) = v ∧ get k (setFpr junk k v) = v := by
  constructor
  · rw [get, setGpr_get junk k v _ (Nat.le_refl _), BitVec.setWidth_eq]
  · rw [get, setFpr, load8_get junk v (Nat.le_refl _) (bits_le k), BitVec.setWidth_eq]

/-- **C184** (booleans): a boolean set is the boolean read. -/
theorem read_back_bool (b : Bool) : boolGpr (setBoolGpr b) = b ∧ boolFpr (setBoolFpr b) = b := by
  cases b <;> decide

/-- **C184** (narrower): reading a type that is not wider gives the low bits of what was set. -/
theorem read_narrower (junk : BitVec 64) (k n : Kind) (v : BitVec k.bits) (h : n.bits ≤ k.bits) :
    get n (setGpr junk k v) = v.setWidth n.bits ∧ get n (setFpr junk k v) = v.setWidth n.bits :=
  ⟨setGpr_get junk k v _ h, load8_get junk v h (bits_le k)⟩

/-- The types whose setter leaves nothing in the register that is not of the value. -/
def clean (k : Kind) : Prop := k ≠ .int8 ∧ k ≠ .int32 ∧ k ≠ .float32

/-- What a whole register should hold for a value: a signed one keeps its sign, anything else is followed by zeros. -/
def extended (k : Kind) (v : BitVec k.bits) : BitVec 64 :=
  if k = .int8 ∨ k = .int16 ∨ k = .int32 then v.signExtend 64 else v.setWidth 64

theorem load8_full (junk v : BitVec 64) : load8 junk v = v := by
  apply BitVec.eq_of_getLsbD_eq
  intro i hi
  simp [load8, hi]

/-- **C184** (wider), partial: all 64 bits of a general register are those of the value extended, except for `int8`,
`int32` and `float32`. -/
theorem whole_register_partial (junk : BitVec 64) (k : Kind) (v : BitVec k.bits) (h : clean k) :
    setGpr junk k v = extended k v := by
  obtain ⟨h1, h2, h3⟩ := h
  cases k <;> first
    | exact absurd rfl h1
    | exact absurd rfl h2
    | exact absurd rfl h3
    | rfl
    | (show load8 junk v = BitVec.setWidth 64 v
       rw [show BitVec.setWidth 64 v = v from BitVec.setWidth_eq v]; exact load8_full junk v)

/-- **C184** (wider), the full claim is false for exactly those: what the register holds beyond the value depends on
the memory beside a variable. -/
theorem whole_register_fails (k : Kind) (h : ¬ clean k) (v : BitVec k.bits) :
    ∃ junk junk', setGpr junk k v ≠ setGpr junk' k v := by
  have key : ∀ {w : Nat} (hw : w < 64) (v : BitVec w), load8 (0 : BitVec 64) v ≠ load8 (1 : BitVec 64) v := by
    intro w hw v e
    have := congrArg (fun r => r.getLsbD w) e
    simp [load8, hw] at this
  refine ⟨0, 1, ?_⟩
  cases k <;> simp [clean] at h
  · exact key (by decide) v
  · exact key (by decide) v
  · exact key (by decide) v

/-- The same for floating-point registers: every type of fewer than 64 bits. -/
theorem whole_register_fails_fpr (k : Kind) (h : k.bits < 64) (v : BitVec k.bits) :
    ∃ junk junk', setFpr junk k v ≠ setFpr junk' k v := by
  refine ⟨0, 1, fun e => ?_⟩
  have := congrArg (fun r => r.getLsbD k.bits) e
  simp [setFpr, load8, h] at this

/-- **C184** (truth), partial: an unsigned value in a general register is true exactly if it is not zero. -/
theorem truth_partial (junk : BitVec 64) (k : Kind) (v : BitVec k.bits) (h : clean k) :
    boolGpr (setGpr junk k v) = true ↔ v ≠ 0 := by
  rw [boolGpr, bne_iff_ne, ne_eq, not_iff_not]
  constructor
  · intro e
    have := (read_back junk k v).1
    rw [e] at this
    rw [← this]; simp [get]
  · rintro rfl
    rw [whole_register_partial junk k _ h, extended]
    have : BitVec.signExtend 64 (0 : BitVec k.bits) = 0 := by cases k <;> decide
    split
    · exact this
    · simp

/-- **C184** (truth), the full claim is false: a zero `int8` can be true, and in a floating-point register the
smallest `int64`, which is negative zero as a float, is false. -/
theorem truth_fails :
    (∃ junk, boolGpr (setGpr junk .int8 (0 : BitVec 8)) = true) ∧
    (∃ v : BitVec 64, v ≠ 0 ∧ ∀ junk, boolFpr (setFpr junk .int64 v) = false) :=
  ⟨⟨1, by decide⟩, ⟨0x8000000000000000, by decide, fun junk => by
    have : setFpr junk .int64 (0x8000000000000000 : BitVec 64) = 0x8000000000000000 := load8_full _ _
    rw [this]; decide⟩⟩

/-- **C184** (C's booleans), violated: a function of C that returned false can be true in Go, when called through
dyncall. -/
theorem c_false_is_go_true_fails : ∃ junk, slowBool junk 0 = true := ⟨1, by decide⟩

/-- What C returned as true is true. -/
theorem c_true_is_go_true (junk : BitVec 64) (c : BitVec 8) (h : c ≠ 0) : slowBool junk c = true := by
  have hz : setGpr junk .int8 c ≠ 0 := by
    intro e
    have := (read_back junk .int8 c).1
    rw [e] at this
    exact h (this.symm.trans rfl)
  have hg : get .uint (setGpr junk .int8 c) = setGpr junk .int8 c := by simp [get, Kind.bits]
  simp only [slowBool, hg]
  have hb : boolGpr (setGpr junk .int8 c) = true := by simpa [boolGpr] using hz
  rw [hb]; decide

example : get .int16 (setGpr 99 .int16 (0x8001 : BitVec 16)) = (0x8001 : BitVec 16) ∧
    setGpr 99 .int16 (0x8001 : BitVec 16) = 0xFFFFFFFFFFFF8001 ∧ clean .int16 := by
  exact ⟨(read_back 99 .int16 _).1, by decide, by simp [clean]⟩

end Verif.Vm.Reg
