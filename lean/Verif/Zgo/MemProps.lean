import Verif.Zgo.MemModel
/-!
# C200: the memory of goroutines
-/
namespace Verif.Zgo.Mem
namespace Spec

/-- Go's memory is valid for as long as it is used: no history uses memory that was given back. -/
def Valid : Prop := ∀ h : List Ev, (run init h).fault = false

/-- The memory in use. -/
def live (s : St) : Nat := (s.objs.filter fun o => !o.freed).length

/-- The objects allocated in a history. -/
def allocated (s : St) : Nat := s.objs.length

/-- No function is running. -/
def AllEnded (s : St) : Prop := ∀ th ∈ s.threads, th.depth = 0

/-- Memory that nothing can use is given back: when all functions have ended, what is left has a bound. -/
def Released : Prop := ∃ bound, ∀ h : List Ev, AllEnded (run init h) → live (run init h) ≤ bound

end Spec

/-- Nothing has been given back, and the routines of objects have begun. -/
structure Kept (s : St) : Prop where
  unfreed : ∀ o ∈ s.objs, o.freed = false
  begun : ∀ o ∈ s.objs, o.routine < s.routines
  threads : ∀ th ∈ s.threads, th.routine < s.routines
  fresh : s.stale = []
  fine : s.fault = false

/-- Events of the proved case: no tests and no nil channels. -/
def Ev.Plain : Ev → Prop
  | .start k => k ≠ .test
  | .nilChan _ => False
  | _ => True

/-- No thread is a test. -/
def NoTests (s : St) : Prop := ∀ th ∈ s.threads, th.kind ≠ .test

theorem exit_new (s : St) (r : Nat) (h : ∀ o ∈ s.objs, o.routine ≠ r) : exit s r = s := by
  unfold exit
  have h1 : (s.objs.map fun o => if o.routine = r then { o with freed := true } else o) = s.objs := by
    conv => rhs; rw [← List.map_id s.objs]
    apply List.map_congr_left
    intro o ho
    simp [h o ho]
  have h2 : s.objs.any (fun o => o.routine = r) = false := by
    rw [List.any_eq_false]
    intro o ho
    simpa using h o ho
  rw [h1, h2]
  rfl

theorem step_kept (s : St) (e : Ev) (k : Kept s) (n : NoTests s) (p : e.Plain) : Kept (step s e) ∧ NoTests (step s e) ∧
    Spec.allocated s ≤ Spec.allocated (step s e) := by
  cases e with
  | start kd =>
    have hs : step s (.start kd) = { s with threads := s.threads ++ [⟨kd, s.routines, 1⟩], routines := s.routines + 1 } := by
      cases kd with
      | main => rfl
      | test => exact absurd rfl p
      | goroutine =>
        show exit _ _ = _
        rw [exit_new]
        intro o ho
        exact Nat.ne_of_lt (k.begun o ho)
    rw [hs]
    refine ⟨⟨k.unfreed, fun o ho => Nat.lt_succ_of_lt (k.begun o ho), ?_, k.fresh, k.fine⟩, ?_, Nat.le_refl _⟩
    · intro th hth
      rcases List.mem_append.1 hth with h | h
      · exact Nat.lt_succ_of_lt (k.threads th h)
      · rw [List.mem_singleton.1 h]; exact Nat.lt_succ_self _
    · intro th hth
      rcases List.mem_append.1 hth with h | h
      · exact n th h
      · rw [List.mem_singleton.1 h]; exact p
  | call t =>
    unfold step
    dsimp only
    split
    · rename_i th ht
      split
      · exact ⟨k, n, Nat.le_refl _⟩
      · have hm := List.mem_of_getElem? ht
        refine ⟨⟨k.unfreed, k.begun, ?_, k.fresh, k.fine⟩, ?_, Nat.le_refl _⟩
        · intro x hx
          rcases List.mem_or_eq_of_mem_set hx with h | h
          · exact k.threads x h
          · rw [h]; exact k.threads th hm
        · intro x hx
          rcases List.mem_or_eq_of_mem_set hx with h | h
          · exact n x h
          · rw [h]; exact n th hm
    · exact ⟨k, n, Nat.le_refl _⟩
  | ret t =>
    unfold step
    dsimp only
    split
    · rename_i th ht
      split
      · exact ⟨k, n, Nat.le_refl _⟩
      · have hm := List.mem_of_getElem? ht
        unfold return_
        dsimp only
        rw [if_neg (fun h => n th hm h.2)]
        refine ⟨⟨k.unfreed, k.begun, ?_, k.fresh, k.fine⟩, ?_, Nat.le_refl _⟩
        · intro x hx
          rcases List.mem_or_eq_of_mem_set hx with h | h
          · exact k.threads x h
          · rw [h]; exact k.threads th hm
        · intro x hx
          rcases List.mem_or_eq_of_mem_set hx with h | h
          · exact n x h
          · rw [h]; exact n th hm
    · exact ⟨k, n, Nat.le_refl _⟩
  | alloc t =>
    unfold step
    dsimp only
    split
    · rename_i th ht
      split
      · exact ⟨k, n, Nat.le_refl _⟩
      · have hm := List.mem_of_getElem? ht
        refine ⟨⟨?_, ?_, k.threads, k.fresh, ?_⟩, n, by simp [Spec.allocated]⟩
        · intro o ho
          rcases List.mem_append.1 ho with h | h
          · exact k.unfreed o h
          · rw [List.mem_singleton.1 h]
        · intro o ho
          rcases List.mem_append.1 ho with h | h
          · exact k.begun o h
          · rw [List.mem_singleton.1 h]; exact k.threads th hm
        · simp [k.fine, k.fresh]
    · exact ⟨k, n, Nat.le_refl _⟩
  | use t obj =>
    unfold step
    dsimp only
    split
    · rename_i o ho
      refine ⟨⟨k.unfreed, k.begun, k.threads, k.fresh, ?_⟩, n, Nat.le_refl _⟩
      simp [k.fine, k.unfreed o (List.mem_of_getElem? ho)]
    · exact ⟨k, n, Nat.le_refl _⟩
  | nilChan t => exact p.elim

theorem run_kept : ∀ (h : List Ev) (s : St), Kept s → NoTests s → (∀ e ∈ h, e.Plain) → Kept (run s h)
  | [], _, k, _, _ => k
  | e :: h, s, k, n, p => by
    obtain ⟨k', n', _⟩ := step_kept s e k n (p e (by simp))
    exact run_kept h (step s e) k' n' (fun x hx => p x (by simp [hx]))

/-- **C200** (partial): whatever the goroutines do, and in whatever order, memory that is used has not been given back, if there are no tests and no
nil channels are used. -/
theorem memory_valid_partial (h : List Ev) (p : ∀ e ∈ h, e.Plain) : (run init h).fault = false :=
  (run_kept h init ⟨by simp [init], by simp [init], by simp [init], rfl, rfl⟩ (by simp [NoTests, init]) p).fine

/-- A goroutine's object is used by `main` after the goroutine has ended. -/
example : (run init [.start .main, .start .goroutine, .alloc 1, .ret 1, .use 0 0, .alloc 0, .use 0 1]).fault = false :=
  memory_valid_partial _ (by simp [Ev.Plain])

/-- **C200** (leak): and nothing ever is given back, not even when all functions have ended. -/
theorem nothing_released (h : List Ev) (p : ∀ e ∈ h, e.Plain) : Spec.live (run init h) = Spec.allocated (run init h) := by
  have k := run_kept h init ⟨by simp [init], by simp [init], by simp [init], rfl, rfl⟩ (by simp [NoTests, init]) p
  unfold Spec.live Spec.allocated
  rw [List.filter_eq_self.2]
  intro o ho
  simp [k.unfreed o ho]

/-- A goroutine that allocates one object and ends. -/
def brief (t : Nat) : List Ev := [.start .goroutine, .alloc t, .ret t]

/-- `n` of these, one after the other. -/
def briefs : Nat → Nat → List Ev
  | _, 0 => []
  | t, n + 1 => brief t ++ briefs (t + 1) n

theorem brief_run (s : St) (k : Kept s) (he : Spec.AllEnded s) :
    Spec.AllEnded (run s (brief s.threads.length)) ∧ (run s (brief s.threads.length)).threads.length = s.threads.length + 1 ∧
    (run s (brief s.threads.length)).objs.length = s.objs.length + 1 := by
  have h1 : step s (.start .goroutine) = { s with threads := s.threads ++ [⟨.goroutine, s.routines, 1⟩], routines := s.routines + 1 } := by
    show exit _ _ = _
    rw [exit_new]
    intro o ho
    exact Nat.ne_of_lt (k.begun o ho)
  unfold brief run
  simp only [List.foldl_cons, List.foldl_nil]
  rw [h1]
  unfold step return_
  simp
  intro th hth
  rcases List.mem_append.1 hth with h | h
  · exact he th h
  · rw [List.mem_singleton.1 h]

theorem briefs_run : ∀ (n : Nat) (s : St), Kept s → NoTests s → Spec.AllEnded s →
    Spec.AllEnded (run s (briefs s.threads.length n)) ∧ (run s (briefs s.threads.length n)).objs.length = s.objs.length + n
  | 0, s, _, _, he => ⟨he, rfl⟩
  | n + 1, s, k, nt, he => by
    obtain ⟨h1, h2, h3⟩ := brief_run s k he
    have hp : ∀ e ∈ brief s.threads.length, e.Plain := by simp [brief, Ev.Plain]
    have k' := run_kept _ s k nt hp
    have nt' : NoTests (run s (brief s.threads.length)) := by
      have : ∀ (h : List Ev) (s : St), Kept s → NoTests s → (∀ e ∈ h, e.Plain) → NoTests (run s h) := by
        intro h
        induction h with
        | nil => intro s _ n _; exact n
        | cons e h ih =>
          intro s k n p
          obtain ⟨k', n', _⟩ := step_kept s e k n (p e (by simp))
          exact ih (step s e) k' n' (fun x hx => p x (by simp [hx]))
      exact this _ s k nt hp
    have ih := briefs_run n _ k' nt' h1
    rw [h2] at ih
    have e : run s (briefs s.threads.length (n + 1)) = run (run s (brief s.threads.length)) (briefs (s.threads.length + 1) n) := by
      show run s (brief _ ++ briefs _ n) = _
      unfold run
      rw [List.foldl_append]
    rw [e]
    exact ⟨ih.1, by rw [ih.2, h3]; omega⟩

theorem briefs_plain : ∀ (n t : Nat), ∀ e ∈ briefs t n, e.Plain
  | 0, _, e, h => by simp [briefs] at h
  | n + 1, t, e, h => by
    rcases List.mem_append.1 h with h | h
    · simp only [brief, List.mem_cons, List.not_mem_nil, or_false] at h
      rcases h with h | h | h <;> subst h <;> simp [Ev.Plain]
    · exact briefs_plain n (t + 1) e h

/-- **C200** fails: the memory of goroutines that have ended is never given back. -/
theorem released_fails : ¬ Spec.Released := by
  rintro ⟨b, h⟩
  have hr := briefs_run (b + 1) init ⟨by simp [init], by simp [init], by simp [init], rfl, rfl⟩ (by simp [NoTests, init])
    (by simp [Spec.AllEnded, init])
  have := h (briefs 0 (b + 1)) hr.1
  rw [nothing_released _ (briefs_plain _ _)] at this
  have e : (run init (briefs 0 (b + 1))).objs.length = 0 + (b + 1) := hr.2
  unfold Spec.allocated at this
  omega

/-- **C200** fails: a send to a nil channel does not wait for ever but goes on, with the memory of the goroutine given back; so does what a
goroutine has from a test that has ended. -/
theorem memory_valid_fails : ¬ Spec.Valid ∧
    (run init [.start .main, .alloc 0, .nilChan 0, .use 0 0]).fault = true ∧
    (run init [.start .main, .alloc 0, .nilChan 0, .alloc 0]).fault = true ∧
    (run init [.start .test, .start .goroutine, .alloc 0, .ret 0, .use 1 0]).fault = true := by
  refine ⟨fun h => ?_, by decide, by decide, by decide⟩
  have := h [.start .main, .alloc 0, .nilChan 0, .use 0 0]
  revert this
  decide

end Verif.Zgo.Mem
