import Verif.Zgo.RangeSpec
/-!
# C229: slicing an array
-/
namespace Verif.Zgo.Range
open Verif.Zgo.Range.Spec (Go Bounded CopiesGood sliceOf)

variable {V : Type}

theorem forwards_eq (mem : Nat ⊕ Nat → Nat → V) (d s : Nat ⊕ Nat) (doff soff : Nat) : ∀ n,
    ¬ (d = s ∧ soff < doff ∧ doff < soff + n) → forwards mem d s doff soff n =
      fun a j => if a = d ∧ doff ≤ j ∧ j < doff + n then mem s (soff + (j - doff)) else mem a j
  | 0, _ => by
    funext a j
    have : ¬ (a = d ∧ doff ≤ j ∧ j < doff + 0) := by omega
    rw [if_neg this]
    rfl
  | n + 1, h => by
    have h' : ¬ (d = s ∧ soff < doff ∧ doff < soff + n) := by
      rintro ⟨a, b, c⟩; exact h ⟨a, b, by omega⟩
    funext a j
    show write (forwards mem d s doff soff n) d (doff + n) (forwards mem d s doff soff n s (soff + n)) a j = _
    rw [forwards_eq mem d s doff soff n h']
    show (if a = d ∧ j = doff + n then
        (if s = d ∧ doff ≤ soff + n ∧ soff + n < doff + n then mem s (soff + (soff + n - doff)) else mem s (soff + n))
      else if a = d ∧ doff ≤ j ∧ j < doff + n then mem s (soff + (j - doff)) else mem a j) = _
    have h1 : ¬ (s = d ∧ doff ≤ soff + n ∧ soff + n < doff + n) := by
      rintro ⟨e, x, y⟩; exact h ⟨e.symm, by omega, by omega⟩
    rw [if_neg h1]
    by_cases ha : a = d
    · by_cases hj : j = doff + n
      · subst hj
        rw [if_pos ⟨ha, rfl⟩, if_pos ⟨ha, by omega, by omega⟩]
        congr 1; omega
      · rw [if_neg (fun x => hj x.2)]
        by_cases hi : doff ≤ j ∧ j < doff + n
        · rw [if_pos ⟨ha, hi⟩, if_pos ⟨ha, hi.1, by omega⟩]
        · rw [if_neg (fun x => hi x.2), if_neg (fun x => hi ⟨x.2.1, by omega⟩)]
    · rw [if_neg (fun x => ha x.1), if_neg (fun x => ha x.1), if_neg (fun x => ha x.1)]

theorem wipe_eq (mem : Nat ⊕ Nat → Nat → V) (zero : V) (b : Nat ⊕ Nat) (off : Nat) : ∀ n,
    wipe mem zero b off n = fun a j => if a = b ∧ off ≤ j ∧ j < off + n then zero else mem a j
  | 0 => by
    funext a j
    have : ¬ (a = b ∧ off ≤ j ∧ j < off + 0) := by omega
    rw [if_neg this]
    rfl
  | n + 1 => by
    funext a j
    show write (wipe mem zero b off n) b (off + n) zero a j = _
    rw [wipe_eq mem zero b off n]
    show (if a = b ∧ j = off + n then zero else if a = b ∧ off ≤ j ∧ j < off + n then zero else mem a j) = _
    by_cases ha : a = b
    · by_cases hj : j = off + n
      · subst hj
        rw [if_pos ⟨ha, rfl⟩, if_pos ⟨ha, by omega, by omega⟩]
      · rw [if_neg (fun x => hj x.2)]
        by_cases hi : off ≤ j ∧ j < off + n
        · rw [if_pos ⟨ha, hi⟩, if_pos ⟨ha, hi.1, by omega⟩]
        · rw [if_neg (fun x => hi x.2), if_neg (fun x => hi ⟨x.2.1, by omega⟩)]
    · rw [if_neg (fun x => ha x.1), if_neg (fun x => ha x.1), if_neg (fun x => ha x.1)]

/-- The compiled program and Go's are in the same state, but for capacities. -/
structure Same (z : St V) (g : Go V) : Prop where
  mem : z.mem = g.cell
  ptr : z.ptr = g.ptr
  blk : ∀ s, (z.lst s).blk = (g.part s).arr
  off : ∀ s, (z.lst s).off = (g.part s).off
  len : ∀ s, (z.lst s).len = (g.part s).len

theorem Same.put {z : St V} {g : Go V} (h : Same z g) (s : Nat) {l : List'} {p : Spec.Part} (h1 : l.blk = p.arr) (h2 : l.off = p.off)
    (h3 : l.len = p.len) : Same (z.put s l) (g.set s p) := by
  refine ⟨h.mem, h.ptr, ?_, ?_, ?_⟩ <;> intro t <;> by_cases e : t = s
  all_goals simp [St.put, Go.set, e, h1, h2, h3, h.blk, h.off, h.len]

/-- With an upper bound and no capacity, `range` gives the part of the array that Go gives. -/
theorem range_bounded (size : Nat) (p : Option Nat) (low : Option Int) (high : Int) :
    (range size p (rangeArgs low (some high) none).1 (rangeArgs low (some high) none).2).map (fun l => (l.blk, l.off, l.len)) =
      (sliceOf size p low (some high) none).map fun q => (q.arr, q.off, q.len) := by
  show (range size p (low.getD 0) high).map _ = _
  cases p with
  | none => unfold range; split <;> rfl
  | some a =>
    show _ = Option.map _ (if 0 ≤ low.getD 0 ∧ low.getD 0 ≤ high ∧ high ≤ (size : Int) ∧ (size : Int) ≤ size then _ else _)
    unfold range
    by_cases hb : low.getD 0 < 0 ∨ low.getD 0 > high ∨ high > size
    · rw [if_pos hb, if_neg (by omega)]; rfl
    · rw [if_neg hb, if_pos (by omega)]; rfl

theorem Same.step (size : Nat → Nat) (grow more : Nat → Nat) (zero : V) {z : St V} {g : Go V} (h : Same z g) (op : Op V)
    (hb : Bounded op) (hc : ∀ s t, op = .copy s t → (g.part t).len ≤ (g.part s).len ∧
      ¬ ((g.part s).arr = (g.part t).arr ∧ (g.part t).off < (g.part s).off ∧ (g.part s).off < (g.part t).off + (g.part t).len)) :
    (Range.step size grow zero z op).2 = (Spec.step size more zero g op).2 ∧
    (((Range.step size grow zero z op).1 = none ∧ (Spec.step size more zero g op).1 = none) ∨
      ∃ z' g', (Range.step size grow zero z op).1 = some z' ∧ (Spec.step size more zero g op).1 = some g' ∧ Same z' g') := by
  cases op with
  | point p a =>
    refine ⟨rfl, .inr ⟨_, _, rfl, rfl, h.mem, ?_, h.blk, h.off, h.len⟩⟩
    show (fun q => if q = p then some a else z.ptr q) = _
    rw [h.ptr]
  | setArr a i v =>
    refine ⟨rfl, .inr ⟨_, _, rfl, rfl, ?_, h.ptr, h.blk, h.off, h.len⟩⟩
    show write z.mem _ i v = _
    rw [h.mem]; rfl
  | getArr a i =>
    refine ⟨?_, .inr ⟨_, _, rfl, rfl, h⟩⟩
    show [Obs.val (z.mem (.inl a) i)] = _
    rw [h.mem]; rfl
  | slice s p low high max =>
    obtain ⟨h1, rfl⟩ : high.isSome = true ∧ max = none := hb
    obtain ⟨hi, rfl⟩ := Option.isSome_iff_exists.1 h1
    have hr := range_bounded (size p) (z.ptr p) low hi
    rw [show sliceOf (size p) (z.ptr p) low (some hi) none = sliceOf (size p) (g.ptr p) low (some hi) none by rw [h.ptr]] at hr
    cases e1 : range (size p) (z.ptr p) (rangeArgs low (some hi) none).1 (rangeArgs low (some hi) none).2 with
    | none =>
      cases e2 : sliceOf (size p) (g.ptr p) low (some hi) none with
      | none => simp only [Range.step, Spec.step, e1, e2]; exact ⟨trivial, .inl ⟨trivial, trivial⟩⟩
      | some q => rw [e1, e2] at hr; cases hr
    | some l =>
      cases e2 : sliceOf (size p) (g.ptr p) low (some hi) none with
      | none => rw [e1, e2] at hr; cases hr
      | some q =>
        rw [e1, e2] at hr
        simp only [Option.map_some, Option.some.injEq, Prod.mk.injEq] at hr
        simp only [Range.step, Spec.step, e1, e2]
        exact ⟨trivial, .inr ⟨_, _, rfl, rfl, h.put s hr.1 hr.2.1 hr.2.2⟩⟩
  | assign s t => exact ⟨rfl, .inr ⟨_, _, rfl, rfl, h.put s (h.blk t) (h.off t) (h.len t)⟩⟩
  | get s i =>
    by_cases hi : i < 0 ∨ i ≥ (g.part s).len
    · have e1 : Range.step size grow zero z (.get s i) = (none, [.panic]) := if_pos (by rw [h.len s]; exact hi)
      have e2 : Spec.step size more zero g (.get s i) = (none, [.panic]) := if_neg (by omega)
      rw [e1, e2]; exact ⟨rfl, .inl ⟨rfl, rfl⟩⟩
    · have e1 : Range.step size grow zero z (.get s i) = (some z, [.val (z.mem (z.lst s).blk ((z.lst s).off + i.toNat))]) :=
        if_neg (by rw [h.len s]; exact hi)
      have e2 : Spec.step size more zero g (.get s i) =
        (some g, [.val (g.cell (g.part s).arr ((g.part s).off + i.toNat))]) := if_pos (by omega)
      rw [e1, e2, h.mem, h.blk, h.off]
      exact ⟨rfl, .inr ⟨_, _, rfl, rfl, h⟩⟩
  | len s =>
    refine ⟨?_, .inr ⟨_, _, rfl, rfl, h⟩⟩
    show [Obs.num (z.lst s).len] = _
    rw [h.len]; rfl
  | copy s t =>
    obtain ⟨c1, c2⟩ := hc s t rfl
    have e : Range.step size grow zero z (.copy s t) =
        (some { z with mem := forwards z.mem (z.lst s).blk (z.lst t).blk (z.lst s).off (z.lst t).off (z.lst t).len },
          [.num (min (z.lst s).len (z.lst t).len)]) := by
      show ite _ _ _ = _
      rw [if_neg (by rw [h.len, h.len]; omega)]
    rw [e, h.len, h.len, h.blk, h.blk, h.off, h.off, h.mem, forwards_eq _ _ _ _ _ _ c2]
    refine ⟨rfl, .inr ⟨_, _, rfl, rfl, ?_, h.ptr, h.blk, h.off, h.len⟩⟩
    show _ = fun a j => if a = (g.part s).arr ∧ (g.part s).off ≤ j ∧ j < (g.part s).off + min (g.part s).len (g.part t).len then _ else _
    rw [Nat.min_eq_right c1]
  | clear s =>
    refine ⟨rfl, .inr ⟨_, _, rfl, rfl, ?_, h.ptr, h.blk, h.off, h.len⟩⟩
    show wipe _ _ _ _ _ = _
    rw [wipe_eq, h.mem, h.blk, h.off, h.len]; rfl
  | append s t v => exact hb.elim

theorem runs_agree (size : Nat → Nat) (grow more : Nat → Nat) (zero : V) : ∀ (prog : List (Op V)) (z : St V) (g : Go V),
    Same z g → (∀ op ∈ prog, Bounded op) → CopiesGood size more zero g prog →
    run size grow zero z prog = Spec.run size more zero g prog
  | [], _, _, _, _, _ => rfl
  | op :: prog, z, g, h, hb, hc => by
    have hcop : ∀ s t, op = .copy s t → (g.part t).len ≤ (g.part s).len ∧
      ¬ ((g.part s).arr = (g.part t).arr ∧ (g.part t).off < (g.part s).off ∧
        (g.part s).off < (g.part t).off + (g.part t).len) := by
      rintro s t rfl; exact hc.1
    obtain ⟨ho, hs⟩ := h.step size grow more zero op (hb op List.mem_cons_self) hcop
    cases e1 : step size grow zero z op with
    | mk a b =>
      cases e2 : Spec.step size more zero g op with
      | mk c d =>
        rw [e1, e2] at ho hs
        obtain rfl : b = d := ho
        rcases hs with ⟨e3, e4⟩ | ⟨z', g', e3, e4, hs⟩
        · obtain rfl : a = none := e3
          obtain rfl : c = none := e4
          rw [run, Spec.run, e1, e2]
        · obtain rfl : a = some z' := e3
          obtain rfl : c = some g' := e4
          have hc2 := hc.2
          rw [e2] at hc2
          rw [run, Spec.run, e1, e2]
          show b ++ _ = b ++ _
          rw [runs_agree size grow more zero prog z' g' hs (fun o ho => hb o (List.mem_cons_of_mem _ ho)) hc2]

/-- **C229**, partial: a program whose slice expressions all have an upper bound and no capacity, that appends nothing and
copies nothing into a later part of the same elements, prints in Zig what it prints in Go: the bounds are checked, and a
slice shares its elements with the array and other slices of it. -/
theorem slicing_partial (size : Nat → Nat) (grow more : Nat → Nat) (zero : V) (prog : List (Op V))
    (hb : ∀ op ∈ prog, Bounded op) (hc : CopiesGood size more zero (Spec.start zero) prog) :
    run size grow zero (start zero) prog = Spec.run size more zero (Spec.start zero) prog :=
  runs_agree size grow more zero prog _ _ ⟨rfl, rfl, fun _ => rfl, fun _ => rfl, fun _ => rfl⟩ hb hc

/-- An array of four that is sliced twice, written, copied within, cleared in part. -/
def exProg : List (Op Nat) :=
  [.point 0 0, .setArr 0 1 7, .setArr 0 2 8, .slice 0 0 (some 1) (some 3) none, .get 0 0, .slice 1 0 none (some 2) none, .len 1,
    .setArr 0 3 9, .copy 1 0, .get 1 0, .getArr 0 1, .clear 0, .getArr 0 1, .getArr 0 3, .assign 2 1, .get 2 0, .slice 0 0 (some 2) (some 5) none]

example : run (fun _ => 4) (fun n => 2 * n) 0 (start 0) exProg =
    [.val 7, .num 2, .num 2, .val 7, .val 8, .val 0, .val 9, .val 7, .panic] := by decide

example : (∀ op ∈ exProg, Bounded op) ∧ CopiesGood (fun _ => 4) (fun n => n) 0 (Spec.start 0) exProg := by
  constructor
  · simp [exProg, Bounded]
  · simp [exProg, CopiesGood, Spec.step, Spec.start, sliceOf, Spec.Go.set, Spec.Go.store]

/-- **C229**, what is missing: without an upper bound the slice is empty, if there is no lower bound either, and a panic
otherwise, whatever the array and its size. -/
theorem no_upper_bound (size : Nat → Nat) (grow : Nat → Nat) (zero : V) (z : St V) (s p a : Nat) (ha : z.ptr p = some a)
    (low max : Option Int) :
    (low.getD 0 = 0 → ∃ z', step size grow zero z (.slice s p low none max) = (some z', []) ∧ (z'.lst s).len = 0) ∧
    (low.getD 0 ≠ 0 → step size grow zero z (.slice s p low none max) = (none, [.panic])) := by
  have hs : step size grow zero z (.slice s p low none max) =
      match range (size p) (z.ptr p) (low.getD 0) 0 with
      | none => (none, [.panic])
      | some l => (some (z.put s l), []) := rfl
  rw [hs, ha]
  constructor
  · intro h
    rw [h]
    have hr : range (size p) (some a) 0 0 = some ⟨.inl a, 0, 0, 0⟩ := by
      unfold range; rw [if_neg (by omega)]; rfl
    rw [hr]
    exact ⟨_, rfl, by simp [St.put]⟩
  · intro h
    have hr : range (size p) (some a) (low.getD 0) 0 = none := by
      unfold range; rw [if_pos (by omega)]
    rw [hr]

/-- **C229**, the full claim is false: `p[:]` of an array of two is empty, and `p[1:]` panics. -/
theorem no_upper_bound_fails (grow more : Nat → Nat) :
    (run (fun _ => 2) grow 0 (start 0) [.point 0 0, .slice 0 0 none none none, .len 0] = [.num 0] ∧
      Spec.run (fun _ => 2) more 0 (Spec.start 0) [.point 0 0, .slice 0 0 none none none, .len 0] = [.num 2]) ∧
    (run (fun _ => 2) grow 0 (start 0) [.point 0 0, .slice 0 0 (some 1) none none, .len 0] = [.panic] ∧
      Spec.run (fun _ => 2) more 0 (Spec.start 0) [.point 0 0, .slice 0 0 (some 1) none none, .len 0] = [.num 1]) := by
  refine ⟨⟨?_, ?_⟩, ?_, ?_⟩ <;>
  simp [run, Spec.run, step, Spec.step, start, Spec.start, range, rangeArgs, sliceOf, St.put, Spec.Go.set]

/-- **C229**, the full claim is false: a capacity is not checked (`p[0:2:1]` is a panic in Go; the bounds are variables). -/
theorem capacity_fails (grow more : Nat → Nat) :
    run (fun _ => 2) grow 0 (start 0) [.point 0 0, .slice 0 0 (some 0) (some 2) (some 1), .len 0] = [.num 2] ∧
    Spec.run (fun _ => 2) more 0 (Spec.start 0) [.point 0 0, .slice 0 0 (some 0) (some 2) (some 1), .len 0] = [.panic] := by
  constructor <;>
  simp [run, Spec.run, step, Spec.step, start, Spec.start, range, rangeArgs, sliceOf, St.put, Spec.Go.set]

/-- **C229**, the full claim is false: `append` to a part of an array does not write into the array. -/
theorem append_fails (grow more : Nat → Nat) :
    run (fun _ => 2) grow 0 (start 0) [.point 0 0, .slice 0 0 none (some 1) none, .append 0 0 5, .getArr 0 1] = [.val 0] ∧
    Spec.run (fun _ => 2) more 0 (Spec.start 0) [.point 0 0, .slice 0 0 none (some 1) none, .append 0 0 5, .getArr 0 1] = [.val 5] := by
  constructor <;>
  simp [run, Spec.run, step, Spec.step, start, Spec.start, range, rangeArgs, sliceOf, St.put, Spec.Go.set, Spec.Go.store, write, forwards]

/-- **C229**, the full claim is false: a copy into a later part of the same array repeats the first element. -/
theorem overlapping_copy_fails (grow more : Nat → Nat) :
    run (fun _ => 3) grow 0 (start 0) [.point 0 0, .setArr 0 0 1, .setArr 0 1 2, .slice 0 0 none (some 2) none,
      .slice 1 0 (some 1) (some 3) none, .copy 1 0, .getArr 0 2] = [.num 2, .val 1] ∧
    Spec.run (fun _ => 3) more 0 (Spec.start 0) [.point 0 0, .setArr 0 0 1, .setArr 0 1 2, .slice 0 0 none (some 2) none,
      .slice 1 0 (some 1) (some 3) none, .copy 1 0, .getArr 0 2] = [.num 2, .val 2] := by
  constructor <;>
  simp [run, Spec.run, step, Spec.step, start, Spec.start, range, rangeArgs, sliceOf, St.put, Spec.Go.set, Spec.Go.store, write, forwards]

end Verif.Zgo.Range
