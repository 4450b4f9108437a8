import Verif.Vm.PinSpec
/-!
# C191: a pointer is pinned until it is freed
-/
namespace Verif.Vm.Pin
open Verif.Vm.Pin.Spec

theorem firstFree_some : ∀ (ss : List Slot) (i j : Nat), firstFree ss i = some j →
    ∃ k, j = i + k ∧ ∃ s, ss[k]? = some s ∧ s.free = true
  | [], i, j, h => by simp [firstFree] at h
  | s :: ss, i, j, h => by
    simp only [firstFree] at h
    split at h
    · rename_i hf; exact ⟨0, (Option.some.inj h).symm, s, rfl, hf⟩
    · obtain ⟨k, e, t, h1, h2⟩ := firstFree_some ss (i + 1) j h
      exact ⟨k + 1, by omega, t, h1, h2⟩

theorem firstFree_none : ∀ (ss : List Slot) (i : Nat), firstFree ss i = none → ∀ s ∈ ss, s.free = false
  | [], _, _, s, hs => by simp at hs
  | t :: ss, i, h, s, hs => by
    simp only [firstFree] at h
    split at h
    · cases h
    · rename_i hnf
      rcases List.mem_cons.1 hs with rfl | hs
      · exact Bool.eq_false_iff.2 hnf
      · exact firstFree_none ss (i + 1) h s hs

theorem made_cons_make (a : Nat) (h : List Op) : made (.make a :: h) = made h + 1 := by simp [made]
theorem made_cons_free (p : Nat) (h : List Op) : made (.free p :: h) = made h := by simp [made]

/-- The pool agrees with the history. -/
structure Inv (h : List Op) (s : St) : Prop where
  count : s.ptrs.length = made h
  addr : s.ptrs.map (·.addr) = addrs h
  /-- A live pointer is the only one pinned by its slot. -/
  live : ∀ p q, Live h p → s.ptrs[p]? = some q → s.slots[q.slot]? = some ⟨false, [p]⟩
  /-- Any slot is free and empty, or that of a live pointer. -/
  slots : ∀ i sl, s.slots[i]? = some sl → sl = ⟨true, []⟩ ∨ ∃ p q, Live h p ∧ s.ptrs[p]? = some q ∧ q.slot = i ∧ sl = ⟨false, [p]⟩

theorem live_make (a : Nat) (h : List Op) (p : Nat) : Live (.make a :: h) p ↔ Live h p ∨ (p = made h ∧ Op.free p ∉ h) := by
  simp only [Live, made_cons_make, List.mem_cons, reduceCtorEq, false_or]
  constructor
  · rintro ⟨h1, h2⟩
    by_cases e : p = made h
    · exact .inr ⟨e, h2⟩
    · exact .inl ⟨by omega, h2⟩
  · rintro (⟨h1, h2⟩ | ⟨rfl, h2⟩)
    · exact ⟨by omega, h2⟩
    · exact ⟨by omega, h2⟩

theorem live_free (k : Nat) (h : List Op) (p : Nat) : Live (.free k :: h) p ↔ Live h p ∧ p ≠ k := by
  simp only [Live, made_cons_free, List.mem_cons, Op.free.injEq, not_or]
  exact ⟨fun ⟨a, b, c⟩ => ⟨⟨a, c⟩, b⟩, fun ⟨⟨a, c⟩, b⟩ => ⟨a, b, c⟩⟩

theorem freed_made : ∀ (h : List Op), FreedOnce h → ∀ p, Op.free p ∈ h → p < made h
  | [], _, p, hm => by simp at hm
  | .make a :: h, hf, p, hm => by
    have := freed_made h hf p (by simpa using hm)
    rw [made_cons_make]; omega
  | .free k :: h, hf, p, hm => by
    rw [made_cons_free]
    rcases List.mem_cons.1 hm with e | hm
    · cases e; exact hf.2.1
    · exact freed_made h hf.1 p hm

theorem inv : ∀ (h : List Op), FreedOnce h → Inv h (after h)
  | [], _ => ⟨rfl, rfl, fun p q hl => absurd hl.1 (by simp [made]), fun i sl he => by simp [after] at he⟩
  | .make a :: h, hf => by
    have ih := inv h hf
    have hnew : Op.free (made h) ∉ h := fun hm => Nat.lt_irrefl _ (freed_made h hf _ hm)
    have hlen := ih.count
    simp only [after, step, pin]
    cases hff : firstFree (after h).slots 0 with
    | some i =>
      obtain ⟨k, e, s, hs, hfree⟩ := firstFree_some _ _ _ hff
      simp only [Nat.zero_add] at e
      subst e
      have hs' : s = ⟨true, []⟩ := by
        rcases ih.slots i s hs with e | ⟨_, _, _, _, _, e⟩
        · exact e
        · rw [e] at hfree; cases hfree
      subst hs'
      refine ⟨by simp [made_cons_make, hlen], by simp [addrs, ih.addr], ?_, ?_⟩
      · intro p q hl hq
        simp only
        rcases (live_make a h p).1 hl with hl | ⟨rfl, _⟩
        · have hlt : p < (after h).ptrs.length := by rw [hlen]; exact hl.1
          rw [List.getElem?_append_left hlt] at hq
          have := ih.live p q hl hq
          rw [List.getElem?_modify]
          by_cases e : i = q.slot
          · rw [e] at hs; rw [hs] at this; cases this
          · simpa [e] using this
        · rw [← hlen] at hq
          simp only [List.getElem?_concat_length, Option.some.injEq] at hq
          subst hq
          simp [List.getElem?_modify, hs, hlen]
      · intro j sl hj
        rw [List.getElem?_modify] at hj
        by_cases e : i = j
        · subst e
          right
          refine ⟨made h, ⟨a, i⟩, (live_make a h _).2 (.inr ⟨rfl, hnew⟩), ?_, rfl, ?_⟩
          · rw [← hlen]; simp
          · simp [hs, hlen] at hj; exact hj.symm
        · rcases ih.slots j sl (by simpa [e] using hj) with e | ⟨p, q, h1, h2, h3, h4⟩
          · exact .inl e
          · refine .inr ⟨p, q, (live_make a h p).2 (.inl h1), ?_, h3, h4⟩
            rw [List.getElem?_append_left (by rw [hlen]; exact h1.1)]; exact h2
    | none =>
      refine ⟨by simp [made_cons_make, hlen], by simp [addrs, ih.addr], ?_, ?_⟩
      · intro p q hl hq
        simp only
        rcases (live_make a h p).1 hl with hl | ⟨rfl, _⟩
        · have hlt : p < (after h).ptrs.length := by rw [hlen]; exact hl.1
          rw [List.getElem?_append_left hlt] at hq
          have := ih.live p q hl hq
          rw [List.getElem?_append_left (List.getElem?_eq_some_iff.1 this).1]; exact this
        · rw [← hlen] at hq
          simp only [List.getElem?_concat_length, Option.some.injEq] at hq
          subst hq
          simp [hlen]
      · intro j sl hj
        by_cases e : j < (after h).slots.length
        · rw [List.getElem?_append_left e] at hj
          rcases ih.slots j sl hj with e | ⟨p, q, h1, h2, h3, h4⟩
          · exact .inl e
          · refine .inr ⟨p, q, (live_make a h p).2 (.inl h1), ?_, h3, h4⟩
            rw [List.getElem?_append_left (by rw [hlen]; exact h1.1)]; exact h2
        · have hj2 : j < (after h).slots.length + 1 := by simpa using (List.getElem?_eq_some_iff.1 hj).1
          have : j = (after h).slots.length := by omega
          subst this
          simp only [List.getElem?_concat_length, Option.some.injEq] at hj
          right
          refine ⟨made h, ⟨a, _⟩, (live_make a h _).2 (.inr ⟨rfl, hnew⟩), ?_, rfl, by rw [← hj, hlen]⟩
          rw [← hlen]; simp
  | .free k :: h, hf => by
    have ih := inv h hf.1
    have hk : k < (after h).ptrs.length := by rw [ih.count]; exact hf.2.1
    have hq := List.getElem?_eq_getElem hk
    have hkl := ih.live k _ hf.2 hq
    simp only [after, step, hq, unpin]
    refine ⟨by rw [made_cons_free]; exact ih.count, ih.addr, ?_, ?_⟩
    · intro p q hl hp
      obtain ⟨h1, h2⟩ := (live_free k h p).1 hl
      have := ih.live p q h1 hp
      simp only
      rw [List.getElem?_modify]
      by_cases e : (after h).ptrs[k].slot = q.slot
      · rw [e] at hkl; rw [hkl] at this; simp at this; exact absurd this.symm h2
      · simpa [e] using this
    · intro j sl hj
      rw [List.getElem?_modify] at hj
      by_cases e : (after h).ptrs[k].slot = j
      · subst e
        simp [hkl] at hj
        exact .inl hj.symm
      · rcases ih.slots j sl (by simpa [e] using hj) with e1 | ⟨p, q, h1, h2, h3, h4⟩
        · exact .inl e1
        · refine .inr ⟨p, q, (live_free k h p).2 ⟨h1, ?_⟩, h2, h3, h4⟩
          rintro rfl
          rw [hq] at h2; cases h2
          exact e h3

/-- **C191**, partial: whatever is made and freed in whatever order, as long as nothing is freed twice, exactly the
pointers that are made and not freed are pinned. -/
theorem pinned_until_freed_partial (h : List Op) (hf : FreedOnce h) (p : Nat) : pinned (after h) p ↔ Live h p := by
  have hi := inv h hf
  constructor
  · rintro ⟨sl, hm, hp⟩
    obtain ⟨i, hlt, he⟩ := List.mem_iff_getElem.1 hm
    rcases hi.slots i sl (by rw [← he]; exact List.getElem?_eq_getElem hlt) with e | ⟨q, _, hl, _, _, e⟩
    · rw [e] at hp; simp at hp
    · rw [e] at hp; simp only [List.mem_singleton] at hp; rw [hp]; exact hl
  · intro hl
    have hlt : p < (after h).ptrs.length := by rw [hi.count]; exact hl.1
    have := hi.live p _ hl (List.getElem?_eq_getElem hlt)
    exact ⟨_, List.mem_iff_getElem?.2 ⟨_, this⟩, by simp⟩

theorem after_ptrs : ∀ (h : List Op), (after h).ptrs.map (·.addr) = addrs h
  | [] => rfl
  | .make a :: h => by simp [after, step, addrs, after_ptrs h]
  | .free k :: h => by
    simp only [after, step, addrs]
    split <;> simpa using after_ptrs h

/-- **C191** (loading): a pointer gives the address it was made of, whatever was made and freed since. -/
theorem loads_its_address (h : List Op) (p : Nat) : load (after h) p = (addrs h)[p]? := by
  rw [load, ← after_ptrs h, List.getElem?_map]

/-- How many slots are in use. -/
def used (ss : List Slot) : Nat := ss.countP (fun s => !s.free)

theorem used_modify : ∀ (ss : List Slot) (i : Nat) (f : Slot → Slot) (s : Slot), ss[i]? = some s →
    used (ss.modify i f) + (if s.free then 0 else 1) = used ss + (if (f s).free then 0 else 1)
  | [], _, _, _, h => by simp at h
  | t :: ss, 0, f, s, h => by
    simp only [List.getElem?_cons_zero, Option.some.injEq] at h
    subst h
    simp only [List.modify_zero_cons, used, List.countP_cons]
    cases t.free <;> cases (f t).free <;> simp
  | t :: ss, i + 1, f, s, h => by
    have := used_modify ss i f s (by simpa using h)
    simp only [List.modify_succ_cons, used, List.countP_cons] at *
    omega

/-- How many were freed. -/
def freed (h : List Op) : Nat := h.countP (fun | .make _ => false | .free _ => true)

theorem used_count : ∀ (h : List Op), FreedOnce h → used (after h).slots + freed h = made h
  | [], _ => rfl
  | .make a :: h, hf => by
    have ih := used_count h hf
    have e : freed (.make a :: h) = freed h := by simp [freed]
    rw [made_cons_make, e]
    simp only [after, step, pin]
    cases hff : firstFree (after h).slots 0 with
    | some i =>
      obtain ⟨k, e, s, hs, hfree⟩ := firstFree_some _ _ _ hff
      have := used_modify (after h).slots i (fun s => ⟨false, (after h).ptrs.length :: s.pins⟩) s (by rw [e]; simpa using hs)
      simp [hfree] at this
      simp only
      omega
    | none => simp only [used, List.countP_append] at *; simp; omega
  | .free k :: h, hf => by
    have ih := used_count h hf.1
    have hi := inv h hf.1
    have hk : k < (after h).ptrs.length := by rw [hi.count]; exact hf.2.1
    have hq := List.getElem?_eq_getElem hk
    have hkl := hi.live k _ hf.2 hq
    have e : freed (.free k :: h) = freed h + 1 := by simp [freed]
    rw [made_cons_free, e]
    simp only [after, step, hq, unpin]
    have := used_modify _ _ (fun _ => (⟨true, []⟩ : Slot)) _ hkl
    simp at this
    omega

/-- **C191** (no leaks): the pool has no more slots than there were live pointers at one time. -/
theorem pool_bounded : ∀ (h : List Op), FreedOnce h → (after h).slots.length ≤ most h
  | [], _ => by simp [after]
  | .make a :: h, hf => by
    have ih := pool_bounded h hf
    have hu := used_count (.make a :: h) hf
    have hm : most (.make a :: h) = max (most h) (made (.make a :: h) - freed (.make a :: h)) := rfl
    rw [hm]
    revert hu
    simp only [after, step, pin]
    cases hff : firstFree (after h).slots 0 with
    | some i => intro _; simp only [List.length_modify]; omega
    | none =>
      intro hu
      have hall : used ((after h).slots ++ [(⟨false, [(after h).ptrs.length]⟩ : Slot)]) =
          ((after h).slots ++ [(⟨false, [(after h).ptrs.length]⟩ : Slot)]).length := by
        unfold used
        rw [List.countP_eq_length]
        intro s hs
        rcases List.mem_append.1 hs with hs | hs
        · simp [firstFree_none _ _ hff s hs]
        · rw [List.mem_singleton.1 hs]; rfl
      simp only at hu ⊢
      omega
  | .free k :: h, hf => by
    have ih := pool_bounded h hf.1
    have hm : most (.free k :: h) = max (most h) (made (.free k :: h) - freed (.free k :: h)) := rfl
    rw [hm]
    simp only [after, step]
    split
    · simp only [unpin, List.length_modify]; omega
    · omega

/-- **C191** fails without that: freeing a pointer twice unpins one that was made since. -/
theorem freed_twice_fails :
    ∃ h : List Op, h = [.free 0, .make 20, .free 0, .make 10] ∧ Live h 1 ∧ ¬ pinned (after h) 1 := by
  refine ⟨_, rfl, ⟨by decide, by decide⟩, ?_⟩
  rintro ⟨sl, hm, hp⟩
  simp [after, step, pin, unpin, firstFree, List.modify] at hm
  subst hm
  simp at hp

/-- The hypothesis is met by a history in which a slot is used again. -/
example : FreedOnce [.make 30, .free 0, .make 20, .make 10] ∧
    (after [.make 30, .free 0, .make 20, .make 10]).slots = [⟨false, [2]⟩, ⟨false, [1]⟩] := by
  refine ⟨?_, rfl⟩
  simp [FreedOnce, Live, made]

end Verif.Vm.Pin
