import Verif.Zgo.OpLemmas

/-!
# zgo operators: the properties

* C165 — an expression groups in Zig as it does in Go.
* C166 — integer arithmetic has the results Go defines.
-/
namespace Verif.Zgo.Op
open Spec

/-! ## C165 -/

/-- What Zig reads, it reads in one way only. -/
theorem zig_reads_one_way (ts : List Tok) (a b : Expr) (ha : ZigReads ts a) (hb : ZigReads ts b) : a = b :=
  reads_unique ha hb

/-- C165, the full statement: Zig reads every Go expression as the tree Go made of it. -/
def ExpressionsKeepTheirShape : Prop := ∀ e, GoTree e → ZigReads (emit e) e

/-- Exactly which expressions keep their shape: those that need no parentheses under Zig's precedences. -/
theorem reads_back_iff (e : Expr) : ZigReads (emit e) e ↔ ZigTree e := ⟨reads_tree, reads_of_tree⟩

/-- The operators whose relative precedence is the same in both languages. -/
def usual : List Sym := [.mul, .div, .rem, .add, .sub, .eq, .ne, .lt, .le, .gt, .ge, .land, .lor]

/-- How the precedences correspond. -/
def rank : Nat → Nat
  | 1 => 10 | 2 => 20 | 3 => 30 | 4 => 60 | 5 => 70 | _ => 80

theorem usual_prec {s : Sym} (h : s ∈ usual) : zigPrec s = some (rank (goPrec s)) ∧ 1 ≤ goPrec s ∧ goPrec s ≤ 5 := by
  revert s; decide

theorem usual_top {e : Expr} (h : Uses usual [.bang, .sub] e) : zigTop e = rank (goTop e) := by
  cases e with
  | bin s l r => simp [zigTop, goTop, (usual_prec h.1).1]
  | _ => rfl

theorem goTop_le (e : Expr) : goTop e ≤ 6 := by
  cases e with
  | bin s l r => cases s <;> simp [goTop, goPrec]
  | _ => simp [goTop]

theorem rank_lt : ∀ a b : Fin 7, a.val < b.val → 1 ≤ a.val → rank a.val < rank b.val := by decide

theorem usual_tree {e : Expr} (hg : GoTree e) (hu : Uses usual [.bang, .sub] e) (hc : NoChain e) : ZigTree e := by
  induction e with
  | atom => trivial
  | par e ih => exact ih hg hu hc
  | un s e ih =>
    refine ⟨by simpa using hu.1, ih hg.2.1 hu.2 hc, ?_⟩
    rw [usual_top hu.2, hg.2.2]; rfl
  | bin s l r ihl ihr =>
    obtain ⟨hs, h1, h5⟩ := usual_prec hu.1
    obtain ⟨_, hgl, hgr, hll, hrr⟩ := hg
    have hl6 := goTop_le l
    have hr6 := goTop_le r
    have hmono : ∀ a b : Nat, a < b → 1 ≤ a → b ≤ 6 → rank a < rank b := fun a b h ha hb =>
      rank_lt ⟨a, by omega⟩ ⟨b, by omega⟩ h ha
    refine ⟨_, hs, ihl hgl hu.2.1 hc.2.1, ihr hgr hu.2.2 hc.2.2, ?_, ?_⟩
    · rw [usual_top hu.2.1]
      by_cases h3 : goPrec s = 3
      · have : goTop l ≠ 3 := hc.1 h3
        rw [if_pos (by rw [h3]; rfl)]
        exact hmono _ _ (by omega) h1 hl6
      · have : nonAssoc (rank (goPrec s)) = false := by
          have : goPrec s = 1 ∨ goPrec s = 2 ∨ goPrec s = 4 ∨ goPrec s = 5 := by omega
          rcases this with h | h | h | h <;> rw [h] <;> rfl
        simp only [this]
        rcases Nat.lt_or_ge (goPrec s) (goTop l) with h | h
        · exact Nat.le_of_lt (hmono _ _ h h1 hl6)
        · have : goTop l = goPrec s := by omega
          simp [this]
    · rw [usual_top hu.2.2]
      exact hmono _ _ hrr h1 hr6

/-- C165, the part that holds: expressions of any size made of arithmetic, comparison and logical
operators, in which no comparison is compared. -/
theorem expression_keeps_shape_partial (e : Expr) (hg : GoTree e) (hu : Uses usual [.bang, .sub] e) (hc : NoChain e) :
    ZigReads (emit e) e := reads_of_tree (usual_tree hg hu hc)

/-- `-a * b + c == d && !(e || f)` -/
def sample : Expr :=
  .bin .land
    (.bin .eq (.bin .add (.bin .mul (.un .sub (.atom 1)) (.atom 2)) (.atom 3)) (.atom 4))
    (.un .bang (.par (.bin .lor (.atom 5) (.atom 6))))

example : GoTree sample ∧ Uses usual [.bang, .sub] sample ∧ NoChain sample := by
  simp [sample, GoTree, Uses, NoChain, usual, goTop, goPrec, goUnary]

/-- The operators on natural numbers. -/
def natOps : Sym → Nat → Nat → Nat
  | .add, a, b => a + b
  | .mul, a, b => a * b
  | .and, a, b => a &&& b
  | .or, a, b => a ||| b
  | .shl, a, b => a <<< b
  | _, a, _ => a

/-- `a | b & c` -/
def orAnd : Expr := .bin .or (.atom 1) (.bin .and (.atom 2) (.atom 3))

/-- C165 fails, silently: Zig reads `a | b & c` as `(a | b) & c`, which has another value. -/
theorem bitwise_fails : GoTree orAnd ∧
    ZigReads (emit orAnd) (.bin .and (.bin .or (.atom 1) (.atom 2)) (.atom 3)) ∧
    (∃ v, value (fun _ a => a) natOps v orAnd ≠
      value (fun _ a => a) natOps v (.bin .and (.bin .or (.atom 1) (.atom 2)) (.atom 3))) := by
  refine ⟨by simp [orAnd, GoTree, goTop, goPrec], ⟨9, by decide⟩, fun n => if n = 1 then 1 else 0, by decide⟩

/-- `a << b + c` -/
def shiftAdd : Expr := .bin .add (.bin .shl (.atom 1) (.atom 2)) (.atom 3)

/-- C165 fails, silently: Zig reads `a << b + c` as `a << (b + c)`. -/
theorem shift_fails : GoTree shiftAdd ∧
    ZigReads (emit shiftAdd) (.bin .shl (.atom 1) (.bin .add (.atom 2) (.atom 3))) ∧
    (∃ v, value (fun _ a => a) natOps v shiftAdd ≠
      value (fun _ a => a) natOps v (.bin .shl (.atom 1) (.bin .add (.atom 2) (.atom 3)))) := by
  refine ⟨by simp [shiftAdd, GoTree, goTop, goPrec], ⟨9, by decide⟩, fun n => if n = 1 then 1 else 3, by decide⟩

/-- `a & b * c` -/
def andMul : Expr := .bin .mul (.bin .and (.atom 1) (.atom 2)) (.atom 3)

/-- C165 fails, silently: Zig reads `a & b * c` as `a & (b * c)`. -/
theorem and_mul_fails : GoTree andMul ∧
    ZigReads (emit andMul) (.bin .and (.atom 1) (.bin .mul (.atom 2) (.atom 3))) ∧
    (∃ v, value (fun _ a => a) natOps v andMul ≠
      value (fun _ a => a) natOps v (.bin .and (.atom 1) (.bin .mul (.atom 2) (.atom 3)))) := by
  refine ⟨by simp [andMul, GoTree, goTop, goPrec], ⟨9, by decide⟩, fun n => if n = 3 then 2 else 1, by decide⟩

/-- C165 fails: a comparison of comparisons, the operator `&^`, and the unary operators `^` and `+` are
never read back, whatever their operands. -/
theorem unreadable_fails (l r : Expr) :
    (∀ s t l1 l2, goPrec s = 3 → goPrec t = 3 → ¬ ZigReads (emit (.bin s (.bin t l1 l2) r)) (.bin s (.bin t l1 l2) r)) ∧
    ¬ ZigReads (emit (.bin .andNot l r)) (.bin .andNot l r) ∧
    ¬ ZigReads (emit (.un .xor l)) (.un .xor l) ∧ ¬ ZigReads (emit (.un .add l)) (.un .add l) := by
  refine ⟨?_, ?_, ?_, ?_⟩
  · intro s t l1 l2 hs ht h
    obtain ⟨p, h1, _, _, h4, _⟩ := reads_tree h
    have hp : p = 30 ∧ zigPrec t = some 30 := by
      constructor
      · cases s <;> simp [goPrec] at hs <;> (simp [zigPrec] at h1; exact h1.symm)
      · cases t <;> simp [goPrec] at ht <;> rfl
    rw [hp.1] at h4
    simp [nonAssoc, zigTop, hp.2] at h4
  · intro h; obtain ⟨p, h1, _⟩ := reads_tree h; simp [zigPrec] at h1
  · intro h; have := (reads_tree h).1; simp at this
  · intro h; have := (reads_tree h).1; simp at this

theorem expressions_keep_their_shape_fails : ¬ ExpressionsKeepTheirShape := by
  intro h
  have h1 := h orAnd bitwise_fails.1
  have h2 := reads_unique h1 bitwise_fails.2.1
  revert h2; decide

/-! ## C166 -/

/-- C166, the full statement: an expression of any size has in Zig the value Go defines for it. -/
def ArithmeticIsGo (w : Nat) : Prop :=
  ∀ (v : Nat → Int) (e : Expr) (a : Int), (∀ n, InRange w (v n)) → goValue w v e = some a → ZigValue w v e a

theorem wrap_id {w : Nat} {i : Int} (h : InRange w i) : wrap w i = i := by
  obtain ⟨h1, h2⟩ := h
  unfold wrap
  have h3 : (2 : Int) ^ (w + 1) = 2 ^ w * 2 := Int.pow_succ 2 w
  rw [Int.emod_eq_of_lt (by omega) (by omega)]
  omega

theorem wrap_range (w : Nat) (i : Int) : InRange w (wrap w i) := by
  have h3 : (2 : Int) ^ (w + 1) = 2 ^ w * 2 := Int.pow_succ 2 w
  have hpos : (0 : Int) < 2 ^ w := Int.pow_pos (by decide)
  have h1 := Int.emod_nonneg (i + 2 ^ w) (show (2 : Int) ^ (w + 1) ≠ 0 by omega)
  have h2 := Int.emod_lt_of_pos (i + 2 ^ w) (show (0 : Int) < 2 ^ (w + 1) by omega)
  constructor
  · unfold wrap; omega
  · unfold wrap; omega

/-- C166, the part that holds: where Zig computes a value at all, it is the one Go defines. -/
theorem arithmetic_partial (w : Nat) (v : Nat → Int) (e : Expr) (a : Int) (h : ZigValue w v e a) :
    goValue w v e = some a := by
  induction h with
  | atom n => rfl
  | par e a _ ih => exact ih
  | neg e a _ hr ih => simp [goValue, ih, wrap_id hr]
  | bin s l r a b c _ _ hc hr ihl ihr => simp [goValue, ihl, ihr, hc, wrap_id hr]

example : ZigValue 63 (fun n => n) (.bin .add (.atom 2) (.bin .mul (.atom 3) (.atom 4))) 14 :=
  .bin _ _ _ _ _ _ (.atom 2) (.bin _ _ _ _ _ _ (.atom 3) (.atom 4) rfl (by constructor <;> decide)) rfl
    (by constructor <;> decide)

/-- Go's values stay in the range of the type. -/
theorem go_value_in_range (w : Nat) (v : Nat → Int) (hv : ∀ n, InRange w (v n)) (e : Expr) (a : Int)
    (h : goValue w v e = some a) : InRange w a := by
  induction e generalizing a with
  | atom n => simp [goValue] at h; subst h; exact hv n
  | par e ih => exact ih a h
  | un s e ih =>
    cases s <;> simp [goValue] at h
    obtain ⟨b, _, rfl⟩ := h
    exact wrap_range w _
  | bin s l r ihl ihr =>
    simp only [goValue] at h
    split at h
    · simp at h; obtain ⟨b, _, rfl⟩ := h; exact wrap_range w _
    · cases h

/-- C166 fails for integers of every size: subtracting minus one from the largest gives the smallest in Go and has no
value in Zig. -/
theorem overflow_fails (w : Nat) : ∃ v : Nat → Int, (∀ n, InRange w (v n)) ∧
    goValue w v (.bin .sub (.atom 0) (.atom 1)) = some (-(2 ^ w)) ∧
    ∀ a, ¬ ZigValue w v (.bin .sub (.atom 0) (.atom 1)) a := by
  have h3 : (2 : Int) ^ (w + 1) = 2 ^ w * 2 := Int.pow_succ 2 w
  have hpos : (0 : Int) < 2 ^ w := Int.pow_pos (by decide)
  refine ⟨fun n => if n = 0 then 2 ^ w - 1 else -1, ?_, ?_, ?_⟩
  · intro n; dsimp only; split <;> constructor <;> omega
  · have : wrap w (2 ^ w - 1 - -1) = -(2 ^ w) := by
      unfold wrap
      have : (2 : Int) ^ w - 1 - -1 + 2 ^ w = 2 ^ (w + 1) := by omega
      rw [this, Int.emod_self]; omega
    simp [goValue, arith]
    simpa using this
  · intro a h
    cases h with
    | bin s l r a b c hl hr hc hrange =>
      cases hl
      cases hr
      simp [arith] at hc
      obtain ⟨_, h2⟩ := hrange
      omega

theorem arithmetic_fails (w : Nat) : ¬ ArithmeticIsGo w := by
  intro h
  obtain ⟨v, hv, h1, h2⟩ := overflow_fails w
  exact h2 _ (h v _ _ hv h1)

end Verif.Zgo.Op
