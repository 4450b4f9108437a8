import Verif.Zgo.SliceLemmas
/-!
# C185: slices behave as Go's
-/
namespace Verif.Zgo.Slice
open Verif.Zgo.Slice.Spec (Go Linear WellFormed NoMake CopiesFit)

variable {V : Type}

theorem runs_agree (w : World V) (hg : ∀ c n, n ≤ w.grow c n) (more : Nat → Nat) (zero : V) :
    ∀ (prog : List (Op V)) (g : Go V) (z : St V) (L : Ls V), GI g L → ZI z L →
    (∀ op ∈ prog, compiles op = true ∧ Linear op ∧ NoMake op) → CopiesFit more zero g prog →
    run w zero z prog = Spec.run more zero g prog
  | [], _, _, _, _, _, _, _ => rfl
  | op :: prog, g, z, L, hG, hZ, hp, hf => by
    obtain ⟨hc, hl, hm⟩ := hp op List.mem_cons_self
    have hw : WellFormed op := by
      cases op with
      | make x len cap => have : len = 0 := hm; subst this; exact Nat.zero_le _
      | _ => trivial
    have hs : ∀ x i v, op ≠ .set x i v := by rintro x i v rfl; simp [compiles] at hc
    have hcap : ∀ x, op ≠ .cap x := by rintro x rfl; simp [compiles] at hc
    obtain ⟨ho, hstep⟩ := hG.step more zero op hl hw hs hcap
    have hfit : ∀ x y, op = .copy x y → (L y).length ≤ (L x).length := by
      rintro x y rfl
      rw [(hG.holds x).1, (hG.holds y).1]
      exact hf.1
    obtain ⟨ho', hstep'⟩ := hZ.step w hg zero op hl hm hc hfit
    rcases hstep with ⟨e1, e2⟩ | ⟨g', L', e1, e2, hG'⟩ <;> rcases hstep' with ⟨e3, e4⟩ | ⟨z', L'', e3, e4, hZ'⟩
    · have a : step w zero z op = (none, (lstep zero L op).2) := by rw [← ho', ← e3]
      have b : Spec.step more zero g op = (none, (lstep zero L op).2) := by rw [← ho, ← e1]
      rw [run, Spec.run, a, b]
    · rw [e2] at e4; cases e4
    · rw [e2] at e4; cases e4
    · have a : step w zero z op = (some z', (lstep zero L op).2) := by rw [← ho', ← e3]
      have b : Spec.step more zero g op = (some g', (lstep zero L op).2) := by rw [← ho, ← e1]
      have hf' := hf.2
      rw [b] at hf'
      rw [run, Spec.run, a, b]
      rw [e2] at e4
      cases e4
      dsimp only
      rw [runs_agree w hg more zero prog g' z' L' hG' hZ' (fun o ho => hp o (List.mem_cons_of_mem _ ho)) hf']

/-- **C185**, partial: a program that shares no slice between variables, makes slices of length 0 or from literals,
and copies nothing longer than its destination, prints in Zig what it prints in Go, however memory is reused, lists
grow, and arenas have room. -/
theorem slices_partial (w : World V) (hg : ∀ c n, n ≤ w.grow c n) (more : Nat → Nat) (zero : V) (prog : List (Op V))
    (hc : ∀ op ∈ prog, compiles op = true) (hl : ∀ op ∈ prog, Linear op) (hm : ∀ op ∈ prog, NoMake op)
    (hf : CopiesFit more zero (Spec.start zero) prog) :
    run w zero (start zero) prog = Spec.run more zero (Spec.start zero) prog := by
  refine runs_agree w hg more zero prog _ _ (fun _ => []) ?_ ?_ (fun op ho => ⟨hc op ho, hl op ho, hm op ho⟩) hf
  · exact ⟨fun _ => rfl, fun _ => Nat.le_refl _, fun _ h => absurd h (Nat.lt_irrefl 0),
      fun _ => ⟨rfl, fun i hi => absurd hi (Nat.not_lt_zero i)⟩, fun _ _ _ h => absurd h (Nat.lt_irrefl 0)⟩
  · exact ⟨fun _ => Nat.le_refl _, fun _ h => absurd h (Nat.lt_irrefl 0),
      fun _ => ⟨rfl, fun i hi => absurd hi (Nat.not_lt_zero i)⟩, fun _ _ _ h => absurd h (Nat.lt_irrefl 0)⟩

/-- A world: memory holds sevens before it is written, lists grow to twice what is needed, and there is room. -/
def exWorld : World Nat := ⟨fun _ _ => 7, fun _ n => 2 * n, fun _ => true⟩

/-- Appends beyond the capacity, a copy, `clear`, indices in and out of range. -/
def exProg : List (Op Nat) :=
  [.lit 0 [1, 2], .append 0 0 3, .other, .append 0 0 4, .append 0 0 5, .make 1 0 4, .append 1 1 9, .copy 0 1, .get 0 0,
    .get 0 4, .clear 1, .get 1 0, .len 0, .get 1 1]

example : run exWorld 0 (start 0) exProg = [.num 1, .val 9, .val 5, .val 0, .num 5, .panic] := by decide

example : run exWorld 0 (start 0) exProg = Spec.run (fun n => n) 0 (Spec.start 0) exProg := by
  refine slices_partial exWorld (fun c n => by simp [exWorld]; omega) _ 0 exProg (by decide) ?_ ?_ ?_
  · simp [exProg, Linear]
  · simp [exProg, NoMake]
  · simp [exProg, CopiesFit, Spec.step, Spec.Go.new, Spec.Go.app, Spec.Go.set, Spec.Go.store, Spec.Go.list, Spec.start]

/-- **C185**, the full claim is false for shared slices: after `t := append(s, 2)` of a full `s`, which grows where it
is, `clear(s)` clears the element of `t`. -/
theorem shared_append_fails : ∃ (w : World Nat) (prog : List (Op Nat)), (∀ c n, n ≤ w.grow c n) ∧
    (∀ op ∈ prog, compiles op = true ∧ WellFormed op ∧ NoMake op) ∧
    (∀ more, CopiesFit more 0 (Spec.start 0) prog) ∧
    run w 0 (start 0) prog = [.val 0] ∧ ∀ more, Spec.run more 0 (Spec.start 0) prog = [.val 1] :=
  ⟨exWorld, [.lit 0 [1], .append 1 0 2, .clear 0, .get 1 0], fun c n => by simp [exWorld]; omega,
    by simp [compiles, WellFormed, NoMake], fun more => by
      simp [CopiesFit, Spec.step, Spec.Go.new, Spec.Go.app, Spec.Go.set, Spec.Go.store, Spec.Go.list, Spec.start],
    by decide, fun more => by
      simp [Spec.run, Spec.step, Spec.Go.new, Spec.Go.app, Spec.Go.set, Spec.Go.store, Spec.Go.list, Spec.start]⟩

/-- **C185**, the full claim is false for `copy` from a longer slice: Zig panics where Go copies what fits. -/
theorem longer_copy_fails (w : World Nat) : ∃ prog : List (Op Nat),
    (∀ op ∈ prog, compiles op = true ∧ Linear op ∧ NoMake op ∧ WellFormed op) ∧
    run w 0 (start 0) prog = [.panic] ∧ ∀ more, Spec.run more 0 (Spec.start 0) prog = [.num 1, .val 2] :=
  ⟨[.lit 0 [1], .lit 1 [2, 3], .copy 0 1, .get 0 0], by simp [compiles, Linear, NoMake, WellFormed],
    by simp [run, step, start, St.alloc, St.fill, St.put, St.write], fun more => by
      simp [Spec.run, Spec.step, Spec.Go.new, Spec.Go.set, Spec.Go.store, Spec.Go.list, Spec.start, List.range,
        List.range.loop]⟩

/-- **C185**, the full claim is false for `make`: the elements are what memory held before. -/
theorem make_fails (w : World Nat) (h : w.fresh 0 0 ≠ 0) : ∃ prog : List (Op Nat),
    (∀ op ∈ prog, compiles op = true ∧ Linear op ∧ WellFormed op) ∧
    run w 0 (start 0) prog = [.val (w.fresh 0 0)] ∧ ∀ more, Spec.run more 0 (Spec.start 0) prog = [.val 0] :=
  ⟨[.make 0 1 1, .get 0 0], by simp [compiles, Linear, WellFormed],
    by simp [run, step, start, St.alloc, St.put], fun more => by
      simp [Spec.run, Spec.step, Spec.Go.new, Spec.start]⟩

example : exWorld.fresh 0 0 ≠ 0 := by decide

/-- **C185**, the full claim is false for assigning an element, slicing, `cap`, and appending several elements: Go
runs these programs, and what is written for each does not compile. -/
theorem refused_fails : ∀ op ∈ ([.set 0 0 5, .cut 1 0 0 1, .cap 0, .appendAll 0 0 [5, 6]] : List (Op Nat)),
    compiles op = false ∧ ∀ more, .val 2 ∈ Spec.run more 0 (Spec.start 0) [.lit 0 [1, 2], op, .get 0 1] := by
  intro op ho
  simp only [List.mem_cons, List.not_mem_nil, or_false] at ho
  rcases ho with rfl | rfl | rfl | rfl <;>
    refine ⟨rfl, fun more => ?_⟩ <;>
    simp [Spec.run, Spec.step, Spec.Go.new, Spec.Go.app, Spec.Go.set, Spec.Go.store, Spec.Go.list, Spec.start,
      List.range, List.range.loop]

end Verif.Zgo.Slice
