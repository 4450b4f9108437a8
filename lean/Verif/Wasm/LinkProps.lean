import Verif.Wasm.LinkModel
/-!
# C90, C91, C92: dynamic linking, runners and their system interface
-/
namespace Verif.Wasm

theorem lookup_append {α : Type} (k : String) (xs ys : List (String × α)) :
    lookup k (xs ++ ys) = match lookup k ys with
      | some w => some w
      | none => lookup k xs := by
  induction xs with
  | nil => rw [List.nil_append]; cases lookup k ys <;> rfl
  | cons x xs ih =>
    obtain ⟨k', v⟩ := x
    rw [List.cons_append, lookup, ih]
    cases lookup k ys <;> rfl

theorem lookup_mem {α : Type} (k : String) (v : α) (es : List (String × α))
    (hd : (es.map (·.1)).Nodup) (h : (k, v) ∈ es) : lookup k es = some v := by
  induction es with
  | nil => simp at h
  | cons e es ih =>
    obtain ⟨k', v'⟩ := e
    rw [List.map_cons, List.nodup_cons] at hd
    rw [lookup]
    rcases List.mem_cons.1 h with h | h
    · cases h
      have : lookup k es = none := none_of es hd.1
      rw [this]; simp
    · rw [ih hd.2 h]
where
  none_of {k : String} (es : List (String × α)) (h : k ∉ es.map (·.1)) : lookup k es = none := by
    induction es with
    | nil => rfl
    | cons e es ih =>
      obtain ⟨k', v'⟩ := e
      simp only [List.map_cons, List.mem_cons, not_or] at h
      rw [lookup, ih h.2]
      simp [Ne.symm h.1]

theorem lookup_none {α : Type} (k : String) (es : List (String × α)) (h : k ∉ es.map (·.1)) :
    lookup k es = none := lookup_mem.none_of es h

theorem libraryNames_keys (libs : List Lib) (n : Nat) :
    (libraryNames libs n).map (·.1) = libs.map (·.name) := by
  induction libs generalizing n with
  | nil => rfl
  | cons l ls ih => simp [libraryNames, ih]

theorem libraryNames_mem (libs : List Lib) (n i : Nat) (l : Lib) (h : libs[i]? = some l) :
    (l.name, BitVec.ofNat 64 (n + i + 1)) ∈ libraryNames libs n := by
  induction libs generalizing n i with
  | nil => simp at h
  | cons k ks ih =>
    cases i with
    | zero =>
      obtain rfl : k = l := by simpa using h
      exact List.mem_cons_self ..
    | succ i =>
      have := ih (n + 1) i (by simpa using h)
      rw [libraryNames]
      refine List.mem_cons_of_mem _ ?_
      rwa [show n + 1 + i + 1 = n + (i + 1) + 1 by omega] at this

/-- The number of libraries fits the handle. -/
def Few (libs : List Lib) : Prop := libs.length < 2 ^ 64

theorem dlsym_dlopen (libs : List Lib) (hf : Few libs) (hd : (libs.map (·.name)).Nodup) (i : Nat)
    (l : Lib) (h : libs[i]? = some l) (fn : String) :
    dlsym libs (dlopen libs l.name) fn = some ((lookup fn l.functions).getD 0) := by
  have hm := libraryNames_mem libs 0 i l h
  have hl := lookup_mem l.name _ _ (by rw [libraryNames_keys]; exact hd) hm
  have hi : i < libs.length := by
    rcases Nat.lt_or_ge i libs.length with c | c
    · exact c
    · rw [List.getElem?_eq_none c] at h; cases h
  have e : (dlopen libs l.name - 1).toNat = i := by
    rw [dlopen, hl]
    have one : (1 : BitVec 64).toNat = 1 := rfl
    simp only [Option.getD_some, BitVec.toNat_sub, BitVec.toNat_ofNat, Few, one] at hf ⊢
    omega
  rw [dlsym, e, h]

/-- C90: opening a library of the host gives a handle, and the symbols looked up with it are the
functions of that library, each under its own name. -/
theorem symbols (libs : List Lib) (hf : Few libs) (hd : (libs.map (·.name)).Nodup) (l : Lib)
    (hl : l ∈ libs) (hfn : (l.functions.map (·.1)).Nodup) (fn : String) (pc : BitVec 64)
    (h : (fn, pc) ∈ l.functions) : dlsym libs (dlopen libs l.name) fn = some pc := by
  obtain ⟨i, hi⟩ := List.getElem?_of_mem hl
  rw [dlsym_dlopen libs hf hd i l hi, lookup_mem fn pc _ hfn h]
  rfl

/-- C90: a name the library does not have gives 0, which is not a handle. -/
theorem symbols_missing (libs : List Lib) (hf : Few libs) (hd : (libs.map (·.name)).Nodup) (l : Lib)
    (hl : l ∈ libs) (fn : String) (h : fn ∉ l.functions.map (·.1)) :
    dlsym libs (dlopen libs l.name) fn = some 0 := by
  obtain ⟨i, hi⟩ := List.getElem?_of_mem hl
  rw [dlsym_dlopen libs hf hd i l hi, lookup_none fn _ h]
  rfl

/-- C90: a library the host does not have gives 0. -/
theorem dlopen_missing (libs : List Lib) (name : String) (h : name ∉ libs.map (·.name)) :
    dlopen libs name = 0 := by
  rw [dlopen, lookup_none name _ (by rw [libraryNames_keys]; exact h)]
  rfl

/-- C90, partial: an API the host has is imported with every function the host has under its name. -/
theorem import_partial (libs : List Lib) (hf : Few libs) (hd : (libs.map (·.name)).Nodup) (l : Lib)
    (hl : l ∈ libs) (hfn : (l.functions.map (·.1)).Nodup) (fns : List String)
    (h : ∀ fn ∈ fns, fn ∈ l.functions.map (·.1)) :
    ∃ ls, importApi libs l.name fns = some ls ∧ ls.map (·.1) = fns ∧
      ∀ fn pc, (fn, Linked.host pc) ∈ ls → (fn, pc) ∈ l.functions := by
  induction fns with
  | nil => exact ⟨[], rfl, rfl, by simp⟩
  | cons fn fns ih =>
    obtain ⟨ls, e, hk, hv⟩ := ih fun f hf => h f (List.mem_cons_of_mem _ hf)
    obtain ⟨⟨fn', pc⟩, hm, rfl⟩ := List.mem_map.1 (h fn (List.mem_cons_self ..))
    refine ⟨(fn', .host pc) :: ls, ?_, by simp [hk], ?_⟩
    · rw [importApi] at e ⊢
      rw [link, symbols libs hf hd l hl hfn fn' pc hm, e]
    · intro f p hfp
      rcases List.mem_cons.1 hfp with c | c
      · cases c; exact hm
      · exact hv f p c

example : importApi [⟨"a", [("F", 1), ("G", 2)]⟩, ⟨"b", [("F", 3)]⟩] "b" ["F"] =
    some [("F", .host 3)] := by decide +kernel

example : ∃ ls, importApi [⟨"a", [("F", 1), ("G", 2)]⟩] "a" ["G"] = some ls ∧ ls.map (·.1) = ["G"] :=
  let ⟨ls, a, b, _⟩ := import_partial [⟨"a", [("F", 1), ("G", 2)]⟩] (by unfold Few; decide) (by decide)
    ⟨"a", [("F", 1), ("G", 2)]⟩ (by simp) (by decide) ["G"] (by decide)
  ⟨ls, a, b⟩

/-- C90 fails: importing an API the host does not have does not make functions that return an error,
it traps. -/
theorem import_fails (libs : List Lib) (hf : Few libs) (name : String) (fn : String)
    (fns : List String) (h : name ∉ libs.map (·.name)) (hl : libs.length < 2 ^ 64 - 1) :
    importApi libs name (fn :: fns) = none := by
  rw [importApi, dlopen_missing libs name h, link, dlsym]
  rw [List.getElem?_eq_none]
  have : ((0 : BitVec 64) - 1).toNat = 2 ^ 64 - 1 := by decide
  rw [this]; omega

/-! ## Runners -/

/-- Specification: the APIs added by a history. -/
def added : List Op → List Nat
  | [] => []
  | .add a :: h => a :: added h
  | _ :: h => added h

/-- Specification: the file that was set last. -/
def lastSet : List Op → Option Nat → Option Nat
  | [], f => f
  | .set f :: h, _ => lastSet h (some f)
  | _ :: h, f => lastSet h f

/-- Specification: the file that was set when the file was compiled last, if it was. -/
def lastCompiled : List Op → Option Nat → Option (Option Nat) → Option (Option Nat)
  | [], _, c => c
  | .set f :: h, _, c => lastCompiled h (some f) c
  | .compile :: h, f, _ => lastCompiled h f (some f)
  | _ :: h, f, c => lastCompiled h f c

/-- Specification: whether an API was added or the system interface was set. -/
def changed (h : List Op) : Bool := h.any fun o => match o with
  | .add _ => true
  | .system => true
  | _ => false

/-- Specification: what running after a history comes to. -/
def expected (h : List Op) : Outcome :=
  if changed h then
    if Op.compile ∈ h then .foreign else .ran (lastSet h none) (added h)
  else if Op.run ∈ h then .panic
  else match lastCompiled h none none with
    | none => .ran (lastSet h none) []
    | some f => .ran f []

theorem added_append (h : List Op) (o : Op) : added (h ++ [o]) = added h ++ added [o] := by
  induction h with
  | nil => rfl
  | cons x h ih => cases x <;> simp [added, ih]

theorem lastSet_append (h : List Op) (o : Op) (f : Option Nat) :
    lastSet (h ++ [o]) f = lastSet [o] (lastSet h f) := by
  induction h generalizing f with
  | nil => rfl
  | cons x h ih => cases x <;> simp only [List.cons_append, lastSet, ih]

theorem lastCompiled_append (h : List Op) (o : Op) (f : Option Nat) (c : Option (Option Nat)) :
    lastCompiled (h ++ [o]) f c = lastCompiled [o] (lastSet h f) (lastCompiled h f c) := by
  induction h generalizing f c with
  | nil => rfl
  | cons x h ih => cases x <;> simp only [List.cons_append, lastCompiled, ih, lastSet]

/-- What the runner knows after a history. -/
structure Knows (h : List Op) (r : Runner) : Prop where
  apis : r.apis = added h
  dirty : r.dirty = changed h
  wasm : r.wasm = lastSet h none
  module : r.module.map (·.1) = lastCompiled h none none
  compiled : r.module.isSome = true ↔ Op.compile ∈ h
  modOld : ∀ f rt, r.module = some (f, rt) → rt < r.next
  runOld : ∀ rt, r.runtime = some rt → rt < r.next
  expOld : ∀ rt ∈ r.exported, rt < r.next
  /-- as long as nothing changed there is one runtime -/
  clean : r.dirty = false → (∀ f rt, r.module = some (f, rt) → r.runtime = some rt) ∧
    (∀ rt, r.runtime = some rt → (rt ∈ r.exported ↔ Op.run ∈ h)) ∧ (Op.run ∈ h → r.runtime.isSome = true)

theorem knows_zero : Knows [] Runner.zero := by
  refine ⟨rfl, rfl, rfl, rfl, ?_, ?_, ?_, ?_, ?_⟩ <;> simp [Runner.zero]

theorem changed_append (h : List Op) (o : Op) : changed (h ++ [o]) = (changed h || changed [o]) := by
  simp [changed]

/-- `assertRuntime` keeps all of this, and its runtime is new if the runner is dirty. -/
theorem knows_assert (h : List Op) (r : Runner) (k : Knows h r) :
    Knows h r.assertRuntime.1 ∧ r.assertRuntime.1.runtime = some r.assertRuntime.2 ∧
    (r.dirty = true → r.assertRuntime.2 = r.next) ∧
    (r.dirty = false → (r.runtime = none ∨ r.runtime = some r.assertRuntime.2)) ∧
    r.assertRuntime.2 < r.assertRuntime.1.next ∧
    r.assertRuntime.1.module = r.module ∧ r.assertRuntime.1.exported = r.exported := by
  obtain ⟨apis, dirty, wasm, module, runtime, next, exported⟩ := r
  cases dirty
  · have hd : (Runner.mk apis false wasm module runtime next exported).dirty = false := rfl
    cases runtime with
    | some rt => exact ⟨k, rfl, by simp, fun _ => Or.inr rfl, k.runOld rt rfl, rfl, rfl⟩
    | none =>
      have hm : module = none := by
        cases hm : module with
        | none => rfl
        | some m => have := (k.clean hd).1 m.1 m.2 hm; cases this
      have hrun : Op.run ∉ h := fun c => by have := (k.clean hd).2.2 c; cases this
      refine ⟨⟨k.apis, k.dirty, k.wasm, k.module, k.compiled, ?_, ?_, ?_, ?_⟩, rfl, by simp,
        fun _ => Or.inl rfl, Nat.lt_succ_self _, rfl, rfl⟩
      · intro f rt e; exact Nat.lt_succ_of_lt (k.modOld f rt e)
      · intro rt e; cases e; exact Nat.lt_succ_self _
      · intro rt e; exact Nat.lt_succ_of_lt (k.expOld rt e)
      · intro _
        refine ⟨?_, ?_, fun _ => rfl⟩
        · intro f rt e
          have e : module = some (f, rt) := e
          rw [hm] at e; cases e
        · intro rt e
          cases e
          exact ⟨fun c => absurd (k.expOld _ c) (Nat.lt_irrefl _), fun c => absurd c hrun⟩
  · have e : (Runner.mk apis true wasm module runtime next exported).assertRuntime =
        (⟨apis, true, wasm, module, some next, next + 1, exported⟩, next) := by
      cases runtime <;> rfl
    rw [e]
    refine ⟨⟨k.apis, k.dirty, k.wasm, k.module, k.compiled, ?_, ?_, ?_, ?_⟩, rfl, fun _ => rfl,
      by simp, Nat.lt_succ_self _, rfl, rfl⟩
    · intro f rt e; exact Nat.lt_succ_of_lt (k.modOld f rt e)
    · intro rt e; cases e; exact Nat.lt_succ_self _
    · intro rt e; exact Nat.lt_succ_of_lt (k.expOld rt e)
    · intro c; cases c

theorem knows_step (h : List Op) (r : Runner) (o : Op) (k : Knows h r) :
    Knows (h ++ [o]) (r.step o) := by
  have ea := added_append h o
  have es := lastSet_append h o none
  have ec := lastCompiled_append h o none none
  have ed := changed_append h o
  cases o with
  | add a =>
    refine ⟨?_, ?_, ?_, ?_, ?_, k.modOld, k.runOld, k.expOld, ?_⟩
    · rw [ea, ← k.apis]; rfl
    · rw [ed]; simp [Runner.step, Runner.add, changed]
    · rw [es, ← k.wasm]; rfl
    · rw [ec, ← k.module]; rfl
    · have := k.compiled; simpa [Runner.step, Runner.add] using this
    · intro c; cases c
  | system =>
    refine ⟨?_, ?_, ?_, ?_, ?_, k.modOld, k.runOld, k.expOld, ?_⟩
    · rw [ea, ← k.apis]; simp [added, Runner.step, Runner.system]
    · rw [ed]; simp [Runner.step, Runner.system, changed]
    · rw [es, ← k.wasm]; rfl
    · rw [ec, ← k.module]; rfl
    · have := k.compiled; simpa [Runner.step, Runner.system] using this
    · intro c; cases c
  | set f =>
    refine ⟨?_, ?_, ?_, ?_, ?_, k.modOld, k.runOld, k.expOld, ?_⟩
    · rw [ea, ← k.apis]; simp [added, Runner.step, Runner.set]
    · rw [ed, ← k.dirty]; simp [Runner.step, Runner.set, changed]
    · rw [es]; rfl
    · rw [ec, ← k.module]; rfl
    · have := k.compiled; simpa [Runner.step, Runner.set] using this
    · intro c
      have := k.clean c
      simpa [Runner.step, Runner.set] using this
  | compile =>
    obtain ⟨k', hrt, hdirty, hclean, hlt, hmod, hexp⟩ := knows_assert h r k
    refine ⟨?_, ?_, ?_, ?_, ?_, ?_, k'.runOld, k'.expOld, ?_⟩
    · rw [ea]; simpa [added, Runner.step, Runner.compile] using k'.apis
    · rw [ed]; simpa [changed, Runner.step, Runner.compile] using k'.dirty
    · rw [es]; simpa [lastSet, Runner.step, Runner.compile] using k'.wasm
    · rw [ec]; simpa [lastCompiled, Runner.step, Runner.compile] using k'.wasm
    · simp [Runner.step, Runner.compile]
    · intro f rt e
      simp only [Runner.step, Runner.compile, Option.some.injEq, Prod.mk.injEq] at e
      rw [← e.2]; exact hlt
    · intro c
      have := k'.clean c
      refine ⟨?_, ?_, ?_⟩
      · intro f rt e
        simp only [Runner.step, Runner.compile, Option.some.injEq, Prod.mk.injEq] at e ⊢
        rw [hrt, e.2]
      · intro rt e
        have := this.2.1 rt e
        simpa [Runner.step, Runner.compile] using this
      · intro _; simp only [Runner.step, Runner.compile]; rw [hrt]; rfl
  | run =>
    obtain ⟨k', hrt, hdirty, hclean, hlt, hmod, hexp⟩ := knows_assert h r k
    have goal : ∀ ex : List Nat, (∀ x ∈ ex, x < r.assertRuntime.1.next) →
        r.assertRuntime.2 ∈ ex →
        Knows (h ++ [.run]) { r.assertRuntime.1 with exported := ex } := by
      intro ex hex hin
      refine ⟨?_, ?_, ?_, ?_, ?_, k'.modOld, k'.runOld, hex, ?_⟩
      · rw [ea]; simpa [added] using k'.apis
      · rw [ed]; simpa [changed] using k'.dirty
      · rw [es]; simpa [lastSet] using k'.wasm
      · rw [ec]; simpa [lastCompiled] using k'.module
      · have := k'.compiled; simpa using this
      · intro c
        have := k'.clean c
        refine ⟨this.1, ?_, fun _ => by simp only []; rw [hrt]; rfl⟩
        intro rt e
        simp only [] at e
        rw [hrt] at e
        cases e
        simp [hin]
    rw [Runner.step, Runner.run]
    dsimp only
    by_cases hc : r.assertRuntime.1.exported.contains r.assertRuntime.2 = true
    · rw [if_pos hc]
      have := goal r.assertRuntime.1.exported k'.expOld (by simpa using hc)
      exact this
    · rw [if_neg hc]
      have := goal (r.assertRuntime.2 :: r.assertRuntime.1.exported) (by
        intro x hx
        rcases List.mem_cons.1 hx with rfl | hx
        · exact hlt
        · exact k'.expOld x hx) (List.mem_cons_self ..)
      split <;> exact this

theorem knows_after (h : List Op) : Knows h (after h) := by
  have : ∀ (h₁ h₂ : List Op) (r : Runner), Knows h₁ r → Knows (h₁ ++ h₂) (h₂.foldl Runner.step r) := by
    intro h₁ h₂
    induction h₂ generalizing h₁ with
    | nil => intro r k; rw [List.append_nil]; exact k
    | cons o h₂ ih =>
      intro r k
      have := ih (h₁ ++ [o]) (r.step o) (knows_step h₁ r o k)
      rwa [List.append_assoc] at this
  exact this [] h .zero knows_zero

/-- C91: what a run comes to, for every history of the runner. -/
theorem run_exact (h : List Op) : (after h).run.2 = expected h := by
  have k := knows_after h
  obtain ⟨k', hrt, hdirty, hclean, hlt, hmod, hexp⟩ := knows_assert h (after h) k
  have hd := k.dirty
  rw [Runner.run, expected]
  dsimp only
  cases hch : changed h
  · rw [hch] at hd
    simp only [Bool.false_eq_true, if_false]
    have hcl := k'.clean (by rw [k'.dirty, hch])
    by_cases hr : Op.run ∈ h
    · rw [if_pos hr, if_pos]
      have := (hcl.2.1 _ hrt).2 hr
      simpa using this
    · rw [if_neg hr, if_neg]
      · have ha : (after h).assertRuntime.1.apis = [] := by
          rw [k'.apis]
          exact no_apis h hch
        rw [← k'.module]
        cases hm : (after h).assertRuntime.1.module with
        | none => simp only [Option.map_none, ha, k'.wasm]
        | some m =>
          obtain ⟨f, rt⟩ := m
          have := hcl.1 f rt hm
          rw [hrt] at this
          simp only [Option.map_some, ha]
          rw [if_pos (Option.some.inj this).symm]
      · intro c
        exact hr ((hcl.2.1 _ hrt).1 (by simpa using c))
  · rw [hch] at hd
    simp only [if_true]
    have hnew := hdirty hd
    rw [if_neg]
    · by_cases hc : Op.compile ∈ h
      · rw [if_pos hc]
        obtain ⟨m, hm⟩ := Option.isSome_iff_exists.1 (k.compiled.2 hc)
        obtain ⟨f, rt⟩ := m
        rw [hmod, hm]
        have := k.modOld f rt hm
        simp only []
        rw [if_neg (by omega)]
      · rw [if_neg hc]
        have hm : (after h).module = none := by
          cases e : (after h).module with
          | none => rfl
          | some m => exact absurd (k.compiled.1 (by rw [e]; rfl)) hc
        rw [hmod, hm]
        simp only [k'.apis, k'.wasm]
    · intro c
      rw [hexp, hnew] at c
      have := k.expOld (after h).next (by simpa using c)
      omega
where
  no_apis (h : List Op) (hc : changed h = false) : added h = [] := by
    induction h with
    | nil => rfl
    | cons o h ih =>
      simp only [changed, List.any_cons, Bool.or_eq_false_iff] at hc
      cases o with
      | add a => simp at hc
      | system => simp at hc
      | set f => exact ih hc.2
      | compile => exact ih hc.2
      | run => exact ih hc.2

/-- C91, partial: if an API has been added or the system interface has been set, and nothing has been
compiled in advance, every run runs the file that was set last with all the APIs. -/
theorem run_partial (h : List Op) (hc : changed h = true) (hn : Op.compile ∉ h) :
    (after h).run.2 = .ran (lastSet h none) (added h) := by
  rw [run_exact, expected, if_pos hc, if_neg hn]

example : (after [.add 1, .set 7, .run, .set 8, .add 2]).run.2 = .ran (some 8) [1, 2] :=
  run_partial _ (by decide) (by decide)

/-- C91 fails: a runner with an API that was compiled in advance never runs. -/
theorem run_compiled_fails (h : List Op) (hc : changed h = true) (hn : Op.compile ∈ h) :
    (after h).run.2 = .foreign := by
  rw [run_exact, expected, if_pos hc, if_pos hn]

example : (after [.set 7, .add 1, .compile]).run.2 = .foreign :=
  run_compiled_fails _ (by decide) (by decide)

/-- C91 fails: a runner without APIs cannot be run twice, and it runs the file that was compiled
although another one has been set since. -/
theorem run_again_fails :
    (after [.set 7, .run]).run.2 = .panic ∧ (after [.set 7, .compile, .set 8]).run.2 = .ran (some 7) [] := by
  rw [run_exact, run_exact]
  exact ⟨rfl, rfl⟩

/-! ## The system interface -/

/-- What a variable of the environment is, for the guest. -/
def lookupEnv (env : List (List Char × List Char)) (k : List Char) : Option (List Char) :=
  (env.find? (fun e => e.1 == k)).map (·.2)

theorem withEnv_fresh (env : List (List Char × List Char)) (k v : List Char) (h : ∀ e ∈ env, e.1 ≠ k) :
    withEnv env k v = env ++ [(k, v)] := by
  induction env with
  | nil => rfl
  | cons e env ih =>
    rw [withEnv, if_neg (h e (by simp)), ih (fun x hx => h x (by simp [hx]))]
    rfl

theorem foldEnv (l : List (List Char × List Char)) : ∀ acc : List (List Char × List Char),
    ((acc ++ l).map (·.1)).Nodup → l.foldl (fun e p => withEnv e p.1 p.2) acc = acc ++ l := by
  induction l with
  | nil => intro acc _; simp
  | cons p l ih =>
    intro acc h
    have hf : ∀ e ∈ acc, e.1 ≠ p.1 := by
      intro e he
      rw [List.map_append, List.nodup_append] at h
      exact h.2.2 e.1 (List.mem_map_of_mem he) p.1 (by simp)
    rw [List.foldl_cons, withEnv_fresh _ _ _ hf, ih _ (by simpa using h)]
    simp

/-- C92, partial: everything that is set is what the guest is given, if either both clocks are set or
none is; arguments that are not set are a single empty one. The keys of the environment differ, being those of a map. -/
theorem config_partial (s : System) (h : s.wall.isSome = s.nano.isSome) (hk : (s.env.map (·.1)).Nodup) :
    s.config = ⟨s.args.getD [[]], s.stdout, s.stderr, s.stdin, s.env, s.root, s.entropy, s.yield, s.sleep,
      s.wall.map some, s.nano.map some⟩ := by
  have he : s.config.env = s.env := foldEnv s.env [] (by simpa using hk)
  obtain ⟨a0, a, b, c, env, mem, d, e, f, g, wall, nano⟩ := s
  unfold System.config at he ⊢
  simp only at he ⊢
  rw [he]
  cases a0 <;> cases wall <;> cases nano <;> first | rfl | cases h

theorem find_nodup (l : List (List Char × List Char)) (hk : (l.map (·.1)).Nodup) (k v : List Char) :
    lookupEnv l k = some v ↔ (k, v) ∈ l := by
  unfold lookupEnv
  induction l with
  | nil => simp
  | cons e l ih =>
    rw [List.map_cons, List.nodup_cons] at hk
    rw [List.find?_cons]
    by_cases he : e.1 = k
    · subst he
      simp only [beq_self_eq_true, Option.map_some, Option.some.injEq, List.mem_cons]
      constructor
      · rintro rfl; left; rfl
      · rintro (h | h)
        · rw [← h]
        · exact absurd (List.mem_map_of_mem (f := (·.1)) h) hk.1
    · have hb : (e.1 == k) = false := by simpa using he
      rw [hb]
      simp only [List.mem_cons]
      rw [ih hk.2]
      constructor
      · exact Or.inr
      · rintro (h | h)
        · rw [← h] at he; exact absurd rfl he
        · exact h

/-- C92: the guest finds each variable of the environment with its value, and no others, in whatever order the map is
iterated over. -/
theorem environment (s : System) (hk : (s.env.map (·.1)).Nodup) (k v : List Char) :
    lookupEnv s.config.env k = some v ↔ (k, v) ∈ s.env := by
  have he : s.config.env = s.env := foldEnv s.env [] (by simpa using hk)
  rw [he]
  exact find_nodup s.env hk k v

/-- C92: a limit of memory that is a number of whole pages, up to the largest memory there is, is the limit. -/
theorem memory_partial (s : System) (n : Nat) (h0 : 0 < n) (hn : n ≤ 65536) (h : s.memory = 65536 * n) :
    s.pages = some n := by
  unfold System.pages
  rw [h, if_pos (by omega)]
  congr 1
  rw [Int.mul_ediv_cancel_left _ (by decide)]
  show ((n : Int).toNat) % 2 ^ 32 = n
  simp
  omega

/-- C92 fails for less than a page: the guest then has no memory at all. -/
theorem memory_fails (s : System) (h0 : 0 < s.memory) (h1 : s.memory < 65536) : s.pages = some 0 := by
  unfold System.pages
  rw [if_pos h0, Int.ediv_eq_zero_of_lt (by omega) h1]
  rfl

example : (System.config ⟨none, some 1, none, none, [(['A'], ['1']), (['B'], [])], 65536, none, none, none, none, some 2, some 3⟩).wall =
    some (some 2) := rfl

example : lookupEnv (System.config ⟨none, some 1, none, none, [(['A'], ['1']), (['B'], [])], 65536, none, none, none, none, some 2, some 3⟩).env ['B'] =
    some [] := (environment _ (by decide) _ _).2 (by decide)

/-- C92 fails: a wall clock alone is not used, and the other clock becomes a nil function. -/
theorem config_fails :
    (System.config ⟨none, none, none, none, [], 0, none, none, none, none, some 2, none⟩).wall = none ∧
    (System.config ⟨none, none, none, none, [], 0, none, none, none, none, some 2, none⟩).nano = some none :=
  ⟨rfl, rfl⟩

end Verif.Wasm
