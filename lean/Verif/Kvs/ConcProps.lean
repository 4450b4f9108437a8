import Verif.Kvs.ConcSpec
import Verif.Kvs.Props

/-! # Concurrent calls of an in-memory key-value map: theorems (C206) -/
namespace Verif.Kvs.Conc
open Verif.Sql (load store delete load_store)
variable {K V : Type} [DecidableEq K]

/-- What an operation told about a key: nothing, or what is there afterwards. -/
def told (k : K) : Step K V → Option (Option V)
  | .load _ => none
  | .store k' v => if k = k' then some (some v) else none
  | .delete k' => if k = k' then some none else none

theorem exec_says (m : List (K × V)) (k : K) (p : Step K V) : load (exec m p) k = (told k p).getD (load m k) := by
  cases p with
  | load _ => rfl
  | store k' v => rw [exec, load_store, told]; split <;> rfl
  | delete k' => rw [exec, load_delete', told]; split <;> rfl

/-- The last operation of a sequence that told something about the key decides. -/
def lastSays (k : K) (r : Option V) (ps : List (Step K V)) : Option V := ps.foldl (fun r p => (told k p).getD r) r

theorem foldl_says (k : K) : ∀ (ps : List (Step K V)) (m : List (K × V)), load (ps.foldl exec m) k = lastSays k (load m k) ps := by
  intro ps
  induction ps with
  | nil => intro m; rfl
  | cons p ps ih => intro m; rw [List.foldl_cons, ih, exec_says]; rfl

theorem after_says (k : K) (m : List (K × V)) (s : List (Nat × Step K V)) :
    load (after m s) k = lastSays k (load m k) (s.map (·.2)) := by
  rw [← foldl_says, after, List.foldl_map]

theorem lastSays_silent (k : K) : ∀ (ps : List (Step K V)) (r : Option V), (∀ p ∈ ps, told k p = none) → lastSays k r ps = r := by
  intro ps
  induction ps with
  | nil => intro r _; rfl
  | cons p ps ih =>
    intro r h
    show lastSays k ((told k p).getD r) ps = r
    rw [h p (by simp)]
    exact ih r (fun q hq => h q (List.mem_cons_of_mem _ hq))

theorem lastSays_append (k : K) (r : Option V) (a b : List (Step K V)) : lastSays k r (a ++ b) = lastSays k (lastSays k r a) b := by
  rw [lastSays, List.foldl_append]; rfl

/-- One call's operations together do what the call told. -/
theorem steps_effect (k : K) (m : List (K × V)) (c : Call K V) (hw : c.Wf) : load ((steps c).foldl exec m) k = effect (load m) c k := by
  cases c with
  | get k' => rfl
  | set k' v => exact load_store m k' k v
  | del k' => exact load_delete' m k' k
  | commit ins order del =>
    have : (steps (.commit ins order del)).foldl exec m = memCommit m order del := by
      rw [steps, List.foldl_append, List.foldl_map, List.foldl_map]; rfl
    rw [this, commit_applies m ins order del hw.1 hw.2]; rfl

theorem calls_effect : ∀ (cs : List (Call K V)) (m : List (K × V)), (∀ c ∈ cs, c.Wf) →
    load ((cs.flatMap steps).foldl exec m) = inTurn (load m) cs := by
  intro cs
  induction cs with
  | nil => intro m _; rfl
  | cons c cs ih =>
    intro m hw
    rw [List.flatMap_cons, List.foldl_append, ih _ (fun c hc => hw c (List.mem_cons_of_mem _ hc)), inTurn, inTurn, List.foldl_cons]
    congr 1
    funext k
    exact steps_effect k m c (hw c (by simp))

theorem steps_mention (k : K) (c : Call K V) (hw : c.Wf) : (∃ p ∈ steps c, told k p ≠ none) ↔ Mentions k c := by
  cases c with
  | get k' => simp [steps, told, Mentions]
  | set k' v => simp [steps, told, Mentions]
  | del k' => simp [steps, told, Mentions]
  | commit ins order del =>
    have hp := hw.2
    simp only [steps, Mentions, List.mem_append, List.mem_map]
    constructor
    · rintro ⟨p, ⟨q, hq, rfl⟩ | ⟨q, hq, rfl⟩, h⟩
      · simp only [told] at h
        split at h
        · rename_i e; exact Or.inl ⟨q, hp.mem_iff.mp hq, e.symm⟩
        · exact absurd rfl h
      · simp only [told] at h
        split at h
        · rename_i e; subst e; exact Or.inr hq
        · exact absurd rfl h
    · rintro (⟨q, hq, e⟩ | h)
      · exact ⟨.store q.1 q.2, Or.inl ⟨q, hp.mem_iff.mpr hq, rfl⟩, by simp [told, e]⟩
      · exact ⟨.delete k, Or.inr ⟨k, h, rfl⟩, by simp [told]⟩

theorem split_last (k : K) : ∀ (s : List (Nat × Step K V)), (∃ p ∈ s, told k p.2 ≠ none) →
    ∃ s1 t p s2, s = s1 ++ (t, p) :: s2 ∧ told k p ≠ none ∧ ∀ q ∈ s2, told k q.2 = none := by
  intro s
  induction s with
  | nil => rintro ⟨p, hp, _⟩; cases hp
  | cons x s ih =>
    rintro ⟨p, hp, h⟩
    by_cases hs : ∃ p ∈ s, told k p.2 ≠ none
    · obtain ⟨s1, t, p, s2, rfl, h1, h2⟩ := ih hs
      exact ⟨x :: s1, t, p, s2, rfl, h1, h2⟩
    · have hs' : ∀ q ∈ s, told k q.2 = none := by
        intro q hq
        by_cases e : told k q.2 = none
        · exact e
        · exact absurd ⟨q, hq, e⟩ hs
      rcases List.mem_cons.mp hp with rfl | hp
      · exact ⟨[], p.1, p.2, s, rfl, h, hs'⟩
      · exact absurd (hs' p hp) h

theorem lastSays_at (k : K) (r r' : Option V) (a a' b : List (Step K V)) (p : Step K V) (hp : told k p ≠ none)
    (hb : ∀ q ∈ b, told k q = none) : lastSays k r (a ++ p :: b) = (told k p).getD r' := by
  rw [lastSays_append]
  show lastSays k ((told k p).getD _) b = _
  rw [lastSays_silent k b _ hb]
  cases h : told k p with
  | none => exact absurd h hp
  | some x => rfl

theorem proj {calls : Nat → List (Call K V)} {s : List (Nat × Step K V)} (hr : Runs calls s) (t : Nat) :
    (s.filter fun p => p.1 = t).map (·.2) = (calls t).flatMap steps := hr t

/-- C206, per key: whatever the interleaving, a key no call mentions keeps its value, and any other has the value it would
have if one goroutine had made its calls alone. (Different keys may have it of different goroutines: `atomic_fails`.) -/
theorem key_by_key_partial (calls : Nat → List (Call K V)) (s : List (Nat × Step K V)) (m : List (K × V))
    (hw : ∀ t, ∀ c ∈ calls t, c.Wf) (hr : Runs calls s) (k : K) :
    ((∀ t, ∀ c ∈ calls t, ¬ Mentions k c) → load (after m s) k = load m k) ∧
    ((∃ t, ∃ c ∈ calls t, Mentions k c) → ∃ t, (∃ c ∈ calls t, Mentions k c) ∧
      load (after m s) k = inTurn (load m) (calls t) k) := by
  have hmem : ∀ t p, (t, p) ∈ s ↔ ∃ c ∈ calls t, p ∈ steps c := by
    intro t p
    rw [← List.mem_flatMap, ← proj hr t]
    simp [List.mem_map, List.mem_filter]
  constructor
  · intro hno
    rw [after_says]
    apply lastSays_silent
    intro p hp
    obtain ⟨⟨t, q⟩, hq, rfl⟩ := List.mem_map.mp hp
    obtain ⟨c, hc, hqc⟩ := (hmem t q).mp hq
    by_cases e : told k q = none
    · exact e
    · exact absurd ((steps_mention k c (hw t c hc)).mp ⟨q, hqc, e⟩) (hno t c hc)
  · rintro ⟨t0, c0, hc0, hm0⟩
    obtain ⟨p0, hp0, hs0⟩ := (steps_mention k c0 (hw t0 c0 hc0)).mpr hm0
    obtain ⟨s1, t, p, s2, hs, h1, h2⟩ := split_last k s ⟨(t0, p0), (hmem t0 p0).mpr ⟨c0, hc0, hp0⟩, hs0⟩
    obtain ⟨c, hc, hpc⟩ := (hmem t p).mp (by rw [hs]; simp)
    refine ⟨t, ⟨c, hc, (steps_mention k c (hw t c hc)).mp ⟨p, hpc, h1⟩⟩, ?_⟩
    rw [← calls_effect _ m (hw t), foldl_says, after_says, ← proj hr t, hs]
    simp only [List.map_append, List.map_cons, List.filter_append, List.filter_cons, decide_true, if_true]
    rw [lastSays_at k _ none _ [] _ p h1, lastSays_at k _ none _ [] _ p h1]
    · intro q hq
      obtain ⟨x, hx, rfl⟩ := List.mem_map.mp hq
      exact h2 x (List.mem_of_mem_filter hx)
    · intro q hq
      obtain ⟨x, hx, rfl⟩ := List.mem_map.mp hq
      exact h2 x hx

/-- C206: goroutines that mention different keys do not disturb each other. -/
theorem disjoint_partial (calls : Nat → List (Call K V)) (s : List (Nat × Step K V)) (m : List (K × V))
    (hw : ∀ t, ∀ c ∈ calls t, c.Wf) (hr : Runs calls s) (k : K) (t : Nat) (hm : ∃ c ∈ calls t, Mentions k c)
    (ho : ∀ u, (∃ c ∈ calls u, Mentions k c) → u = t) : load (after m s) k = inTurn (load m) (calls t) k := by
  obtain ⟨u, hu, h⟩ := (key_by_key_partial calls s m hw hr k).2 ⟨t, hm⟩
  rw [h, ho u hu]

theorem store_inserts {k : K} {v : V} {c : Call K V} (hw : c.Wf) (h : Step.store k v ∈ steps c) : Inserts k v c := by
  cases c with
  | get k' => simp [steps] at h
  | set k' v' => simpa [steps, Inserts] using h
  | del k' => simp [steps] at h
  | commit ins order del =>
    simp only [steps, List.mem_append, List.mem_map] at h
    rcases h with ⟨q, hq, e⟩ | ⟨q, hq, e⟩
    · injection e with e1 e2
      subst e1 e2
      exact hw.2.mem_iff.mp hq
    · cases e

theorem delete_deletes {k : K} {c : Call K V} (h : Step.delete k ∈ steps c) : Deletes k c := by
  cases c with
  | get k' => simp [steps] at h
  | set k' v' => simp [steps] at h
  | del k' => simpa [steps, Deletes] using h
  | commit ins order del =>
    simp only [steps, List.mem_append, List.mem_map] at h
    rcases h with ⟨q, hq, e⟩ | ⟨q, hq, e⟩
    · cases e
    · injection e with e1
      subst e1
      exact hq

/-- At every moment a key has its first value, one that a call inserts, or none if a call deletes it. -/
theorem every_moment_partial (calls : Nat → List (Call K V)) (s now later : List (Nat × Step K V)) (m : List (K × V))
    (hw : ∀ t, ∀ c ∈ calls t, c.Wf) (hr : Runs calls s) (hs : s = now ++ later) (k : K) :
    load (after m now) k = load m k ∨
    (∃ t, ∃ c ∈ calls t, ∃ v, load (after m now) k = some v ∧ Inserts k v c) ∨
    (load (after m now) k = none ∧ ∃ t, ∃ c ∈ calls t, Deletes k c) := by
  by_cases h : ∃ p ∈ now, told k p.2 ≠ none
  · obtain ⟨s1, t, p, s2, h0, h1, h2⟩ := split_last k now h
    have hp : p ∈ (calls t).flatMap steps := by
      rw [← proj hr t, hs, h0]; simp [List.mem_map, List.mem_filter]
    obtain ⟨c, hc, hpc⟩ := List.mem_flatMap.mp hp
    have hv : load (after m now) k = (told k p).getD none := by
      rw [after_says, h0]
      simp only [List.map_append, List.map_cons]
      rw [lastSays_at k _ none _ [] _ p h1]
      intro q hq
      obtain ⟨x, hx, rfl⟩ := List.mem_map.mp hq
      exact h2 x hx
    cases p with
    | load _ => exact absurd rfl h1
    | store k' v =>
      simp only [told] at h1 hv
      split at h1
      · rename_i e; subst e
        exact Or.inr (Or.inl ⟨t, c, hc, v, by rw [hv, if_pos rfl]; rfl, store_inserts (hw t c hc) hpc⟩)
      · exact absurd rfl h1
    | delete k' =>
      simp only [told] at h1 hv
      split at h1
      · rename_i e; subst e
        exact Or.inr (Or.inr ⟨by rw [hv, if_pos rfl]; rfl, t, c, hc, delete_deletes hpc⟩)
      · exact absurd rfl h1
  · left
    rw [after_says]
    apply lastSays_silent
    intro q hq
    obtain ⟨x, hx, rfl⟩ := List.mem_map.mp hq
    by_cases e : told k x.2 = none
    · exact e
    · exact absurd ⟨x, hx, e⟩ h

/-- The call that is this one operation. -/
def callOf : Step K V → Call K V
  | .load k => .get k
  | .store k v => .set k v
  | .delete k => .del k

theorem steps_callOf : ∀ (cs : List (Call K V)), (∀ c ∈ cs, Single c) → (cs.flatMap steps).map callOf = cs := by
  intro cs
  induction cs with
  | nil => intro _; rfl
  | cons c cs ih =>
    intro h
    have hi := ih (fun c hc => h c (List.mem_cons_of_mem _ hc))
    have hc := h c (by simp)
    rw [List.flatMap_cons, List.map_append, hi]
    cases c with
    | commit => exact absurd hc id
    | _ => rfl

theorem filter_map_fst {α β : Type} (g : α → β) (t : Nat) : ∀ (s : List (Nat × α)),
    ((s.map fun p => (p.1, g p.2)).filter fun p => p.1 = t).map (·.2) = ((s.filter fun p => p.1 = t).map (·.2)).map g := by
  intro s
  induction s with
  | nil => rfl
  | cons x s ih =>
    rw [List.map_cons]
    by_cases e : x.1 = t
    · simp only [List.filter_cons, e, decide_true, if_true, List.map_cons, ih]
    · simp only [List.filter_cons, e, decide_false, Bool.false_eq_true, if_false, ih]

theorem found_seen : ∀ (s : List (Nat × Step K V)) (m : List (K × V)),
    found m s = seen (load m) (s.map fun p => (p.1, callOf p.2)) ∧
    load (after m s) = inTurn (load m) ((s.map fun p => (p.1, callOf p.2)).map (·.2)) := by
  intro s
  induction s with
  | nil => intro m; exact ⟨rfl, rfl⟩
  | cons x s ih =>
    intro m
    obtain ⟨t, p⟩ := x
    cases p with
    | load k => exact ⟨by rw [found, (ih m).1]; rfl, (ih m).2⟩
    | store k v =>
      have e : load (store m k v) = effect (load m) (.set k v) := by funext k'; exact load_store m k k' v
      refine ⟨?_, ?_⟩
      · rw [found, (ih _).1, e]; rfl
      · show load (after (store m k v) s) = _
        rw [(ih _).2, e]; rfl
    | delete k =>
      have e : load (delete m k) = effect (load m) (.del k) := by funext k'; exact load_delete' m k k'
      refine ⟨?_, ?_⟩
      · rw [found, (ih _).1, e]; rfl
      · show load (after (delete m k) s) = _
        rw [(ih _).2, e]; rfl

/-- C206 for `Get`, `Set` and `Del`: any interleaving is as if whole calls had been made one after the other. -/
theorem atomic_partial (calls : Nat → List (Call K V)) (s : List (Nat × Step K V)) (m : List (K × V))
    (hc : ∀ t, ∀ c ∈ calls t, Single c) (hr : Runs calls s) :
    ∃ order, Interleaves calls order ∧ load (after m s) = inTurn (load m) (order.map (·.2)) ∧ found m s = seen (load m) order := by
  refine ⟨s.map fun p => (p.1, callOf p.2), ?_, (found_seen s m).2, (found_seen s m).1⟩
  intro t
  rw [filter_map_fst, proj hr t, steps_callOf (calls t) (hc t)]

/-- Two goroutines that commit to the same two keys. -/
def twoCommits : Nat → List (Call Nat Nat)
  | 0 => [.commit [(1, 10), (2, 10)] [(1, 10), (2, 10)] []]
  | 1 => [.commit [(1, 20), (2, 20)] [(1, 20), (2, 20)] []]
  | _ => []

/-- One way their operations can happen. -/
def crossed : List (Nat × Step Nat Nat) := [(0, .store 1 10), (1, .store 1 20), (1, .store 2 20), (0, .store 2 10)]

theorem crossed_runs : Runs twoCommits crossed := by
  intro t
  match t with
  | 0 => rfl
  | 1 => rfl
  | t + 2 => simp [crossed, twoCommits]

theorem twoCommits_wf : ∀ t, ∀ c ∈ twoCommits t, c.Wf := by
  intro t c hc
  match t with
  | 0 => simp [twoCommits] at hc; subst hc; exact ⟨by decide, by decide⟩
  | 1 => simp [twoCommits] at hc; subst hc; exact ⟨by decide, by decide⟩
  | t + 2 => simp [twoCommits] at hc

/-- The hypotheses of the theorems about keys are met. -/
example : (∃ c ∈ twoCommits 0, Mentions 1 c) ∧ load (after [] crossed) 1 = some 20 ∧ load (after [] crossed) 2 = some 10 :=
  ⟨⟨.commit [(1, 10), (2, 10)] [(1, 10), (2, 10)] [], by simp [twoCommits], by simp [Mentions]⟩, by decide, by decide⟩

/-- C206 is false of commits: of two that write the same two keys, one key can keep the value of one and the other key that
of the other. -/
theorem atomic_fails : ¬ CallsAreAtomic := by
  intro h
  obtain ⟨order, hi, hl, _⟩ := h twoCommits crossed twoCommits_wf crossed_runs
  have hne : order ≠ [] := by
    rintro rfl
    have := hi 0
    simp [twoCommits] at this
  obtain ⟨init, ⟨t, c⟩, rfl⟩ : ∃ init x, order = init ++ [x] := ⟨order.dropLast, order.getLast hne, (List.dropLast_append_getLast hne).symm⟩
  have hc : c ∈ twoCommits t := by rw [← hi t]; simp [List.mem_map, List.mem_filter]
  have h1 : load (after [] crossed) 1 = some 20 := by decide
  have h2 : load (after [] crossed) 2 = some 10 := by decide
  rw [hl] at h1 h2
  rw [List.map_append, inTurn, List.foldl_append] at h1 h2
  match t with
  | 0 =>
    simp only [twoCommits, List.mem_singleton] at hc; subst hc
    simp [effect, applied] at h1
  | 1 =>
    simp only [twoCommits, List.mem_singleton] at hc; subst hc
    simp [effect, applied] at h2
  | t + 2 => simp [twoCommits] at hc

/-- A `Get` in the middle of a commit finds one of its keys inserted and the other not. -/
theorem half_commit_fails : ∃ calls s, Runs calls s ∧ calls 0 = [.commit [(1, 10), (2, 10)] [(1, 10), (2, 10)] []] ∧
    found [] s = [((1 : Nat), (1 : Nat), some (10 : Nat)), (1, 2, none)] := by
  refine ⟨fun t => if t = 0 then [.commit [(1, 10), (2, 10)] [(1, 10), (2, 10)] []] else if t = 1 then [.get 1, .get 2] else [],
    [(0, .store 1 10), (1, .load 1), (1, .load 2), (0, .store 2 10)], ?_, rfl, by decide⟩
  intro t
  match t with
  | 0 => rfl
  | 1 => rfl
  | t + 2 => simp

/-- Calls of single keys by two goroutines, and an interleaving of them. -/
example : ∃ order : List (Nat × Call Nat Nat), Interleaves (fun t => if t = 0 then [.set 1 5, .get 2] else if t = 1 then [.set 2 6, .del 1] else []) order ∧
    found [] [(1, .store 2 6), (0, .store 1 5), (0, .load 2), (1, .delete 1)] = seen (fun _ => none) order := by
  obtain ⟨o, h1, _, h3⟩ := atomic_partial (K := Nat) (V := Nat) (fun t => if t = 0 then [.set 1 5, .get 2] else if t = 1 then [.set 2 6, .del 1] else [])
    [(1, .store 2 6), (0, .store 1 5), (0, .load 2), (1, .delete 1)] [] (by
      intro t c hc
      match t with
      | 0 => simp at hc; rcases hc with rfl | rfl <;> trivial
      | 1 => simp at hc; rcases hc with rfl | rfl <;> trivial
      | t + 2 => simp at hc) (by
      intro t
      match t with
      | 0 => rfl
      | 1 => rfl
      | t + 2 => simp)
  exact ⟨o, h1, h3⟩

end Verif.Kvs.Conc
