import Verif.Vm.VarModel
import Verif.Vm.Props
/-!
# C190: a program does the same in either variant
-/
namespace Verif.Vm.Var

/-- Two machines that differ only in registers the fast variant does not have. -/
structure Sim (a b : M) : Prop where
  pc : a.pc = b.pc
  normal : a.normal = b.normal
  length : a.length = b.length
  assert : a.assert = b.assert
  result : a.result = b.result
  heap : a.heap = b.heap
  reg : ∀ n, availFast n = true → a.reg n = b.reg n
  out : ∀ n, availFast n = true → a.out n = b.out n

/-- Both fail, or both succeed alike. -/
def Both (x y : Option M) : Prop :=
  match x, y with
  | none, none => True
  | some a, some b => Sim a b
  | _, _ => False

/-- The function that is called is one of R0, R1 and X0 only, and gives the same in both variants. -/
def SameCall (f g : (Nat → W) → (Nat → W)) : Prop :=
  ∀ r s : Nat → W, (∀ n, availFast n = true → r n = s n) → ∀ n, availFast n = true → f r n = g s n

/-- The instructions on memory do not look at registers. -/
def Blind (ext : Mode → Nat → M → Option M) : Prop :=
  ∀ n a b, Sim a b → Both (ext .func n a) (ext .func n b)

/-- No instructions of dyncall. -/
def NoSlow (text : List (BitVec 8)) : Prop := ∀ op ∈ text, (decode op).1 ≠ .slow

theorem push_sim (n : Nat) {a b : M} (h : Sim a b) : Both (push n a) (push n b) := by
  unfold push
  rw [← h.heap, ← h.normal]
  cases a.heap with
  | nil => trivial
  | cons x xs => exact ⟨h.pc, rfl, h.length, h.assert, h.result, rfl, h.reg, h.out⟩

theorem math_sim (e1 e2 : Env) (hf : e1.float = e2.float) (n : Nat) {a b : M} (h : Sim a b) :
    math e1 n a = math e2 n b := by
  obtain ⟨_, h1, h2, h3, h4, _, _, _⟩ := h
  unfold math
  rw [h1, h2, h3, h4, hf]

theorem func_sim (arch : Env) (call) (hc : SameCall call arch.call) (hb : Blind arch.ext) (n : Nat) {a b : M}
    (h : Sim a b) : Both (func (fast arch call) n a) (func arch n b) := by
  obtain ⟨h0, h1, h2, h3, h4, h5, h6, h7⟩ := id h
  unfold func
  split
  · exact h
  · have e : (a.assert != 0) = (b.assert != 0) := by rw [h3]
    rw [e]
    split
    · exact ⟨by simp [h1], h1, h2, h3, h4, h5, h6, h7⟩
    · exact h
  · exact ⟨h0, h1, h2, h3, h4, h5, hc _ _ h7, hc _ _ h7⟩
  · simp only [fast]
    rw [← h1, ← h2]
    cases arch.wrap a.length.toNat a.normal with
    | none => trivial
    | some w => exact ⟨h0, rfl, rfl, h3, h4, h5, h6, h7⟩
  · exact ⟨h0, by simp [h1], h2, h3, h4, h5, h6, h7⟩
  · exact ⟨h0, h2, h1, h3, h4, h5, h6, h7⟩
  · exact ⟨h0, h3, h2, h1, h4, h5, h6, h7⟩
  · exact ⟨h0, h4, h2, h3, h1, h5, h6, h7⟩
  · exact ⟨h0, h1, h2, h3, h4, by simp [h5], h6, h7⟩
  · exact push_sim _ h
  · exact push_sim _ h
  · exact push_sim _ h
  · exact push_sim _ h
  all_goals first
    | (simp only [fast, reduceCtorEq, if_false]; exact hb _ _ _ h)
    | trivial

theorem exec_sim (arch : Env) (call) (ha : ∀ n, availFast n = true → arch.avail n = true)
    (hc : SameCall call arch.call) (hb : Blind arch.ext) (op : BitVec 8) (hs : (decode op).1 ≠ .slow)
    (hm : ∀ n, decode op = (.load, n) ∨ decode op = (.move, n) → availFast n = true) {a b : M} (h : Sim a b) :
    Both (exec (fast arch call) op a) (exec arch op b) := by
  obtain ⟨h0, h1, h2, h3, h4, h5, h6, h7⟩ := id h
  rcases hd : decode op with ⟨mo, n⟩
  rw [hd] at hs hm
  unfold exec
  rw [hd]
  cases mo with
  | func => exact func_sim arch call hc hb n h
  | arch => exact h
  | none => exact h
  | slow => exact absurd rfl hs
  | bits => exact ⟨h0, rfl, h2, h3, h4, h5, h6, h7⟩
  | math =>
    have := math_sim (fast arch call) arch rfl n h
    simp only [this]
    cases math arch n b with
    | none => trivial
    | some w => exact ⟨h0, h1, h2, h3, rfl, h5, h6, h7⟩
  | load =>
    have hn := hm n (.inl rfl)
    simp only [fast, hn, ha n hn, if_true]
    exact ⟨h0, h6 n hn, h2, h3, h4, h5, h6, h7⟩
  | move =>
    have hn := hm n (.inr rfl)
    simp only [fast, hn, ha n hn, if_true]
    refine ⟨h0, h1, h2, h3, h4, h5, h6, fun k hk => ?_⟩
    simp only [update]
    split
    · exact h1
    · exact h7 k hk

theorem run_sim (arch : Env) (call) (ha : ∀ n, availFast n = true → arch.avail n = true)
    (hc : SameCall call arch.call) (hb : Blind arch.ext) (text : List (BitVec 8)) (hs : NoSlow text)
    (hu : usesFast text = true) : ∀ (fuel : Nat) (a b : M), Sim a b →
    Both (run (fast arch call) text fuel a) (run arch text fuel b)
  | 0, a, b, h => by
    simp only [run, h.pc]
    split
    · exact h
    · trivial
  | fuel + 1, a, b, h => by
    simp only [run, h.pc]
    cases ho : text[b.pc]? with
    | none => exact h
    | some op =>
      have hmem : op ∈ text := List.mem_iff_getElem?.2 ⟨_, ho⟩
      have hm : ∀ n, decode op = (.load, n) ∨ decode op = (.move, n) → availFast n = true := by
        intro n hn
        refine usesFast_sound text hu n (List.mem_filterMap.2 ⟨op, hmem, ?_⟩)
        rcases hn with hn | hn <;> rw [hn]
      have := exec_sim arch call ha hc hb op (hs op hmem) hm h
      revert this
      simp only
      cases exec (fast arch call) op a with
      | none =>
        cases exec arch op b with
        | none => exact fun _ => trivial
        | some y => exact fun h => h.elim
      | some x =>
        cases exec arch op b with
        | none => exact fun h => h.elim
        | some y =>
          intro hxy
          obtain ⟨k0, k1, k2, k3, k4, k5, k6, k7⟩ := hxy
          exact run_sim arch call ha hc hb text hs hu fuel _ _ ⟨by simp [k0], k1, k2, k3, k4, k5, k6, k7⟩

/-- **C190**, partial: a program without instructions of dyncall, calling a function of no more than R0, R1 and X0,
returns in those registers, or panics, or does not end, as it would if it were run with all the registers; jumps,
functions and the heap included. -/
theorem variants_agree_partial (arch : Env) (call) (ha : ∀ n, availFast n = true → arch.avail n = true)
    (hc : SameCall call arch.call) (hb : Blind arch.ext) (text : List (BitVec 8)) (hs : NoSlow text) (fuel : Nat)
    (few many : Nat → W) (hargs : ∀ n, availFast n = true → few n = many n) :
    match run (makeFunc arch call text) text fuel (start (if usesFast text then few else many)), run arch text fuel (start many) with
    | none, none => True
    | some a, some b => ∀ n, availFast n = true → a.out n = b.out n
    | _, _ => False := by
  unfold makeFunc
  cases hu : usesFast text with
  | false =>
    simp only [Bool.false_eq_true, if_false]
    cases run arch text fuel (start many) <;> simp
  | true =>
    simp only [if_true]
    have := run_sim arch call ha hc hb text hs hu fuel (start few) (start many)
      ⟨rfl, rfl, rfl, rfl, rfl, rfl, hargs, hargs⟩
    revert this
    cases run (fast arch call) text fuel (start few) <;> cases run arch text fuel (start many) <;>
      simp only [Both, imp_self, false_implies]
    exact fun h => h.out

/-- The machine of amd64 with a function that adds its first two arguments; dyncall's instructions stop it. -/
def exArch : Env := ⟨availAmd64, fun r => update r 0 (r 0 + r 1), fun _ _ _ => 0, fun _ w => some w, fun _ _ _ => none⟩

example : (∀ n, availFast n = true → exArch.avail n = true) ∧ SameCall exArch.call exArch.call ∧ Blind exArch.ext ∧
    NoSlow [new .load 0, new .move 1, new .func 2] ∧ usesFast [new .load 0, new .move 1, new .func 2] = true := by
  refine ⟨?_, ?_, fun _ _ _ _ => trivial, by unfold NoSlow; decide +kernel, by decide +kernel⟩
  · intro n h
    simp only [availFast, Bool.or_eq_true, beq_iff_eq] at h
    rcases h with (rfl | rfl) | rfl <;> rfl
  · intro r s h n hn
    simp only [exArch, update]
    split
    · rw [h 0 rfl, h 1 rfl]
    · exact h n hn

/-- **C190** fails: a program that calls through dyncall and mentions no more than R0, R1 and X0 is run by the variant that
steps over those instructions: nothing is called. -/
theorem dyncall_fails (arch : Env) (call) (args : Nat → W) :
    ∃ text, text = [new .load 0, new .slow 5, new .slow 14, new .move 0] ∧
      (run (makeFunc arch call text) text 4 (start args)).map (fun m => m.out) = some (update args 0 (args 0)) := by
  refine ⟨_, rfl, ?_⟩
  have hu : usesFast [new .load 0, new .slow 5, new .slow 14, new .move 0] = true := by decide +kernel
  simp only [makeFunc, hu, if_true]
  simp [run, start, exec, decode_new .load 0 (by omega), decode_new .slow 5 (by omega), decode_new .slow 14 (by omega),
    decode_new .move 0 (by omega), fast, availFast]

/-- **C190** fails: the fast variant is chosen for a call whose third argument is in its place already, and the function is
called without it. -/
theorem third_argument_fails : ∃ (arch : Env) (call : (Nat → W) → (Nat → W)) (args : Nat → W) (text : List (BitVec 8)),
    compileCall [(.hw (.reg 0), .hw (.reg 0)), (.hw (.reg 1), .hw (.reg 1)), (.hw (.reg 2), .hw (.reg 2))] = some text ∧
    (∀ r, call r = arch.call (fun n => if availFast n then r n else 0)) ∧
    (run (makeFunc arch call text) text 1 (start args)).map (fun m => m.out 0) ≠
      (run arch text 1 (start args)).map (fun m => m.out 0) := by
  refine ⟨⟨availArm64, fun r => update r 0 (r 2), fun _ _ _ => 0, fun _ _ => none, fun _ _ _ => none⟩, _,
    fun n => BitVec.ofNat 64 n, _, rfl, fun r => rfl, ?_⟩
  decide +kernel

end Verif.Vm.Var
