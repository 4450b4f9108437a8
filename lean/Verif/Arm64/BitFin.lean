import Verif.Arm64.Spec
namespace Verif.Arm64
open Spec

/-! Finite tables used by BitLemmas.lean. -/

theorem decode64 : ∀ S : Fin 63, ∀ R : Fin 64, decodeBitMasks 1 (BitVec.ofNat 6 R.1) (BitVec.ofNat 6 S.1) = some (rotated64 S.1 R.1) := by
  decide +kernel

theorem decode64_last : ∀ R : Fin 64, rotated64 63 R.1 = 0xFFFFFFFFFFFFFFFF ∧ decodeBitMasks 1 (BitVec.ofNat 6 R.1) 63 = none := by
  decide +kernel

theorem rotated64_ends : ∀ S : Fin 63, ∀ R : Fin 64, rotated64 S.1 R.1 ≠ 0 ∧ rotated64 S.1 R.1 ≠ 0xFFFFFFFFFFFFFFFF := by
  decide +kernel

/-- The size of the elements, less one. -/
def sizeIdx (imms : Nat) : Fin 5 := if imms < 32 then 4 else if imms < 48 then 3 else if imms < 56 then 2 else if imms < 60 then 1 else 0

theorem accept_small : ∀ e : Fin 5, ∀ R k : Fin 33, R.1 < 2 ^ (e.1 + 1) → 1 ≤ k.1 → k.1 < 2 ^ (e.1 + 1) →
    (encodeE (repeated (2 ^ (e.1 + 1)) (rotatedE (2 ^ (e.1 + 1)) R.1 (BitVec.ofNat 64 (2 ^ k.1 - 1)))) (2 ^ (e.1 + 1))).isSome = true := by
  decide +kernel

theorem decode_small : ∀ immr imms : Fin 64,
    (decodeBitMasks 0 (BitVec.ofNat 6 immr.1) (BitVec.ofNat 6 imms.1)).all (fun v => v != 0 && v != 0xFFFFFFFFFFFFFFFF &&
      decide (imms.1 % 2 ^ ((sizeIdx imms.1).1 + 1) + 1 < 2 ^ ((sizeIdx imms.1).1 + 1)) &&
      v == repeated (2 ^ ((sizeIdx imms.1).1 + 1)) (rotatedE (2 ^ ((sizeIdx imms.1).1 + 1)) (immr.1 % 2 ^ ((sizeIdx imms.1).1 + 1))
        (BitVec.ofNat 64 (2 ^ (imms.1 % 2 ^ ((sizeIdx imms.1).1 + 1) + 1) - 1)))) = true := by
  decide +kernel

/-- Everything that can come out of the loop for small elements. -/
theorem small_ok : ∀ e : Fin 5, ∀ R k : Fin 33, R.1 < 2 ^ (e.1 + 1) → 1 ≤ k.1 → k.1 < 2 ^ (e.1 + 1) →
    decodeBitMasks 0 (BitVec.ofNat 6 (2 ^ (e.1 + 1) - R.1)) (BitVec.ofNat 6 ((2 ^ 6 - 2 ^ (e.1 + 2)) + (k.1 - 1))) =
      some (repeated (2 ^ (e.1 + 1)) (rotatedE (2 ^ (e.1 + 1)) (2 ^ (e.1 + 1) - R.1) (BitVec.ofNat 64 (2 ^ k.1 - 1)))) := by
  decide +kernel

end Verif.Arm64
