import Verif.Mmm.Lemmas4

/-! Properties C13, C14, C15 of mmm: see Spec for the vocabulary. Histories start from nothing allocated. -/
namespace Verif.Mmm

theorem run_append (s : St) (a b : List Op) :
    run s (a ++ b) = ((run (run s a).1 b).1, (run s a).2 ++ (run (run s a).1 b).2) := by
  induction a generalizing s with
  | nil => rfl
  | cons op t ih => simp only [List.cons_append, run, ih, List.append_assoc]

theorem run_one (s : St) (op : Op) : run s [op] = step s op := by
  simp [run]

/-! ### C13: use after free is detected -/

/-- C13, for clients that give every allocation an API and never store the zero value: whatever the history,
once the allocation behind a handle has been freed (by `Free` or by the end of its lifetime) or moved away, every
later `Get`, `Set`, `Free` and `Move` through that handle panics and changes nothing.
Missing for the full property: histories that store the zero value, where it is false (`..._fails` below). -/
theorem use_after_free_detected_partial (ops : List Op) (hs : ∀ op ∈ ops, Sane op) (p : Nat) (h : Hdl)
    (hp : (run init ops).1.ptrs[p]? = some h) (hend : h.name ∈ ended (run init ops).2) :
    step (run init ops).1 (.get p) = ((run init ops).1, [.crash]) ∧
    (∀ v, step (run init ops).1 (.set p v) = ((run init ops).1, [.crash])) ∧
    step (run init ops).1 (.free p) = ((run init ops).1, [.crash]) ∧
    (∀ (l c : Nat), l < (run init ops).1.lifes.length → step (run init ops).1 (.move p l c) = ((run init ops).1, [.crash])) := by
  have hI := inv1_init.run ops hs
  rw [List.nil_append] at hI
  obtain ⟨_, _, hlt⟩ := hI.ended _ hend
  have hlt : h.rev % 2 ^ 62 < ((run init ops).1.heap h.ref).rev % 2 ^ 62 := hlt
  have hm : matchesRev ((run init ops).1.heap h.ref).rev h.rev = false := by
    simp only [matchesRev, decide_eq_false_iff_not]; omega
  refine ⟨?_, ?_, ?_, ?_⟩
  · simp [step, hp, get, hm]
  · intro v; simp [step, hp, set, hm]
  · simp [step, hp, freePtr, hm]
  · intro l c hl
    simp only [step, hp, List.getElem?_eq_getElem hl, move, hm]
    split <;> rfl

/-- A freed block recycled for pointer 1 is not readable through pointer 0. -/
example : let ops := [Op.newLifetime 0, .new 0 0 true 5 false, .free 0, .new 0 0 true 7 false]
    (∀ op ∈ ops, Sane op) ∧ ((run init ops).1.ptrs[0]?).map Hdl.ref = ((run init ops).1.ptrs[1]?).map Hdl.ref ∧
    step (run init ops).1 (.get 1) = ((run init ops).1, [.got 7]) ∧ (step (run init ops).1 (.get 0)).2 = [.crash] := by
  refine ⟨by simp [Sane], by decide +kernel, rfl, by decide +kernel⟩

/-- C13 is false in general: a pointer holding the zero value can be read through its handle after it was freed,
and once the block is recycled the old handle reads, and frees, the other allocation. -/
theorem use_after_free_detected_fails :
    let ops := [Op.newLifetime 0, .new 0 0 true 0 false, .free 0, .new 0 0 true 7 false]
    let s := (run init ops).1
    (∃ h, s.ptrs[0]? = some h ∧ h.name ∈ ended (run init ops).2) ∧
    (step s (.get 0)).2 = [.got 7] ∧ (∃ h, (step s (.free 0)).2 = [.freed h 7]) := by
  refine ⟨⟨⟨1, 0⟩, by decide +kernel, by decide +kernel⟩, by decide +kernel, ⟨⟨1, 0⟩, by decide +kernel⟩⟩

/-- The value of the `p`-th pointer is `v` and its block is in use. -/
private def Holds (s : St) (p v : Nat) (h : Hdl) : Prop :=
  s.ptrs[p]? = some h ∧ (s.heap h.ref).fin = true ∧ (s.heap h.ref).rev % 2 ^ 62 = h.rev % 2 ^ 62 ∧ (s.heap h.ref).val = v

private theorem Holds.step {s E} (hI : Inv1 s E) {p v : Nat} {h : Hdl} (hh : Holds s p v h) (op : Op) (ho : Sane op)
    (hset : ∀ w, op ≠ .set p w) : Holds (step s op).1 p v h ∨ h.name ∈ ended (step s op).2 := by
  obtain ⟨h1, h2, h3, h4⟩ := hh
  have hptr := (hI.base.step op ho.hasApi).2.ptrs p h h1
  by_cases hs : ∃ q w, op = .set q w
  · obtain ⟨q, w, rfl⟩ := hs
    left
    refine ⟨hptr, ?_⟩
    simp only [Mmm.step]
    split
    · rename_i k hk
      unfold Mmm.set
      split
      · rename_i hm
        have hne : h.ref ≠ k.ref := by
          intro e
          have hmm : (s.heap k.ref).rev % 2 ^ 62 = k.rev % 2 ^ 62 := by simpa [matchesRev] using hm
          have hn : h.name = k.name := by
            show (⟨h.ref, h.rev % 2 ^ 62⟩ : Hdl) = ⟨k.ref, k.rev % 2 ^ 62⟩
            rw [← h3, ← hmm, e]
          obtain ⟨i1, i2⟩ := List.getElem?_eq_some_iff.mp h1
          obtain ⟨j1, j2⟩ := List.getElem?_eq_some_iff.mp hk
          have : p = q := by
            apply (List.getElem_inj (h₀ := by simpa using i1) (h₁ := by simpa using j1) hI.namesNd).mp
            simp [i2, j2, hn]
          exact hset w (by rw [this])
        simp only [St.upd, if_neg hne]
        exact ⟨h2, h3, h4⟩
      · exact ⟨h2, h3, h4⟩
    · exact ⟨h2, h3, h4⟩
  · have hk := Keep.step hI op ho (fun q w e => hs ⟨q, w, e⟩) h.ref h2
    rcases hk with ⟨k1, k2, k3⟩ | hk
    · left; exact ⟨hptr, k1, by rw [k2, h3], by rw [k3, h4]⟩
    · right; rw [h3] at hk; exact hk

private theorem Holds.run {p v : Nat} {h : Hdl} (ops : List Op) : ∀ {s E}, Inv1 s E → Holds s p v h → (∀ op ∈ ops, Sane op) →
    (∀ w, Op.set p w ∉ ops) → h.name ∉ ended (run s ops).2 → Holds (run s ops).1 p v h := by
  induction ops with
  | nil => intro s E _ hh _ _ _; exact hh
  | cons op t ih =>
    intro s E hI hh ho hset hn
    simp only [Mmm.run, ended_append, List.mem_append, not_or] at hn ⊢
    have h1 := hh.step hI op (ho op (by simp)) (fun w e => hset w (by simp [e]))
    rcases h1 with h1 | h1
    · exact ih (hI.step op (ho op (by simp))) h1 (fun o hm => ho o (by simp [hm])) (fun w hm => hset w (by simp [hm])) hn.2
    · exact absurd h1 hn.1

/-- The other half of C13, under the same conditions: as long as an allocation has not been freed or moved,
reading it gives the value it was created with unless the client stored another one; no operation on other
pointers or lifetimes, and no recycling, disturbs it. -/
theorem live_pointer_reads_its_value_partial (ops₁ ops₂ : List Op) (l c v : Nat) (pin : Bool) (h : Hdl)
    (hs : ∀ op ∈ ops₁ ++ Op.new l c true v pin :: ops₂, Sane op)
    (hnew : (step (run init ops₁).1 (.new l c true v pin)).2 = [.ptr h])
    (hset : ∀ w, Op.set (run init ops₁).1.ptrs.length w ∉ ops₂)
    (hlive : h.name ∉ ended (run (step (run init ops₁).1 (.new l c true v pin)).1 ops₂).2) :
    (step (run init (ops₁ ++ Op.new l c true v pin :: ops₂)).1 (.get (run init ops₁).1.ptrs.length)).2 = [.got v] := by
  have hI := inv1_init.run ops₁ (fun o ho => hs o (by simp [ho]))
  have hI2 := hI.step (.new l c true v pin) (hs _ (by simp))
  have hv : v ≠ 0 := (hs (Op.new l c true v pin) (by simp)).2
  have hh : Holds (step (run init ops₁).1 (.new l c true v pin)).1 (run init ops₁).1.ptrs.length v h := by
    have hlk : ∃ k, (run init ops₁).1.lifes[l]? = some k := by
      cases e : (run init ops₁).1.lifes[l]? with
      | none => simp [step, e] at hnew
      | some k => exact ⟨k, rfl⟩
    obtain ⟨k, hk⟩ := hlk
    simp only [step, hk] at hnew ⊢
    have heff := newRaw_eff (run init ops₁).1 k c true v
    have hself := core_vals heff.self
    have hal := hI.alloc k c v hv
    unfold newPtr at hnew ⊢
    dsimp only at hnew ⊢
    have hh : (newRaw (run init ops₁).1 k c true v).2 = h := by
      cases pin <;> simpa using hnew
    rw [hh] at hself hal ⊢
    cases pin
    · simp only [Bool.false_eq_true, if_false]
      refine ⟨?_, hself.2.2.1, by rw [hself.1], hself.2.2.2⟩
      show ((newRaw (run init ops₁).1 k c true v).1.ptrs ++ [h])[_]? = _
      rw [heff.ptrs]; simp
    · simp only [if_true]
      refine ⟨?_, ?_, ?_, ?_⟩
      · show ((newRaw (run init ops₁).1 k c true v).1.ptrs ++ [h])[_]? = _
        rw [heff.ptrs]; simp
      · simp [St.upd, hself.2.2.1]
      · simp only [St.upd, if_true]; rw [pinRev_mod, hself.1]
      · simp [St.upd, hself.2.2.2]
  have := Holds.run ops₂ hI2 hh (fun o ho => hs o (by simp [ho])) hset hlive
  rw [run_append]
  simp only [run]
  obtain ⟨e1, e2, e3, e4⟩ := this
  generalize (run (step (run init ops₁).1 (.new l c true v pin)).1 ops₂).1 = s at *
  have hm : matchesRev (s.heap h.ref).rev h.rev = true := by simp only [matchesRev, decide_eq_true_eq]; exact e3
  simp only [step, e1, get, hm, if_true, e4]

example : (step (run init [.newLifetime 0, .new 0 0 true 5 false, .new 0 0 true 6 false, .set 1 9, .free 1, .new 0 0 true 8 true]).1
    (.get 0)).2 = [.got 5] := by decide +kernel

/-! ### C14: a lifetime's end frees each of its allocations exactly once -/

/-- C14, first half, for clients that never store the zero value and give every allocation an API: in any history
no allocation is ever released twice (whether by `Free`, `Move` or the end of a lifetime), and everything released
is an allocation that was handed to the client. Missing: zero values, see `freed_at_most_once_fails`. -/
theorem freed_at_most_once_partial (ops : List Op) (hs : ∀ op ∈ ops, Sane op) :
    (ended (run init ops).2).Nodup ∧
    ∀ h ∈ ended (run init ops).2, ∃ k ∈ (run init ops).1.ptrs, k.name = h := by
  have hI := inv1_init.run ops hs
  rw [List.nil_append] at hI
  refine ⟨hI.nd, fun h hh => ?_⟩
  have := hI.sub h hh
  simpa using this

example : ended (run init [.newLifetime 0, .new 0 0 true 5 false, .free 0, .free 0, .new 0 0 true 6 false, .endLife 0, .endLife 0]).2 =
    [⟨1, 0⟩, ⟨1, 1⟩] := by decide +kernel

/-- Freeing a pointer that holds the zero value twice releases it twice. -/
theorem freed_at_most_once_fails :
    ¬ (ended (run init [.newLifetime 0, .new 0 0 true 0 false, .free 0, .free 0]).2).Nodup := by decide +kernel

/-- C14, for disciplined clients (`Disciplined`: individual frees and moves in last-in-first-out order within a
lifetime, no zero values, no pinned pointer used as a lifetime): ending a lifetime calls `Free` exactly once for
each pointer the abstract account says is alive in it, newest first, with the value it holds, and does nothing
else; ending it again does nothing.
Missing for the full property: out-of-order frees, where it is false (`lifetime_end_frees_all_fails`). -/
theorem lifetime_end_frees_all_partial (ops : List Op) (hd : DisciplinedRun Abs.init ops) (l : Nat) :
    (∀ st, (Abs.init.run ops).lifes[l]? = some (some st) →
      (step (run init ops).1 (.endLife l)).2 = st.map (freedEv (run init ops).1 (Abs.init.run ops))) ∧
    ((Abs.init.run ops).lifes[l]? = some none → (step (run init ops).1 (.endLife l)).2 = []) := by
  have hS := sim_init.run ops hd
  constructor
  · intro st hst
    have hll : l < (run init ops).1.lifes.length := by rw [← hS.lenL]; exact (List.getElem?_eq_some_iff.mp hst).1
    have hr := List.getElem?_eq_getElem hll
    simp only [step, hr]
    exact (hS.endLife hr).2.1 st hst
  · intro hst
    have hll : l < (run init ops).1.lifes.length := by rw [← hS.lenL]; exact (List.getElem?_eq_some_iff.mp hst).1
    have hr := List.getElem?_eq_getElem hll
    simp only [step, hr]
    exact (hS.endLife hr).2.2 hst

/-- The same account predicts every read: a pointer that is alive holds the value of the account, any other panics. -/
theorem disciplined_reads_partial (ops : List Op) (hd : DisciplinedRun Abs.init ops) (p : Nat)
    (hp : p < (Abs.init.run ops).vals.length) :
    ((Abs.init.run ops).Live p → (step (run init ops).1 (.get p)).2 = [.got ((Abs.init.run ops).vals.getD p 0)]) ∧
    (¬ (Abs.init.run ops).Live p → (step (run init ops).1 (.get p)).2 = [.crash]) := by
  have hS := sim_init.run ops hd
  rw [hS.lenV] at hp
  have hr := List.getElem?_eq_getElem hp
  constructor
  · intro hl
    obtain ⟨⟨_, _, _, h4, _⟩, hm⟩ := hS.match_of_live hr hl
    simp only [step, hr, get, hm, if_true]
    rw [List.getD_eq_getElem?_getD, h4]; rfl
  · intro hl
    have := fun hm => hl (hS.live_of_match hr hm)
    simp only [step, hr, get, if_neg this]

/-- A disciplined history with two lifetimes, frees, a move and recycling. -/
example : DisciplinedRun Abs.init [.newLifetime 0, .newLifetime 0, .new 0 0 true 5 false, .new 0 0 true 6 false, .new 1 0 true 7 false,
    .free 1, .new 0 0 true 8 false, .move 3 1 0] := by
  refine ⟨trivial, trivial, ⟨rfl, by simp, [], rfl⟩, ⟨rfl, by simp, [0], rfl⟩, ⟨rfl, by simp, [], rfl⟩, fun _ => ⟨0, [0], rfl⟩,
    ⟨rfl, by simp, [0], rfl⟩, fun _ => ⟨⟨0, [0], rfl⟩, rfl, ⟨[2], rfl⟩⟩, trivial⟩

/-- C14 is false in general: after freeing the older of two pointers, ending the lifetime does not free the newer
one; it leaks and stays readable. -/
theorem lifetime_end_frees_all_fails :
    let ops := [Op.newLifetime 0, .new 0 0 true 5 false, .new 0 0 true 6 false, .free 0]
    (∀ op ∈ ops, Sane op) ∧
    (step (run init ops).1 (.endLife 0)).2 = [] ∧
    (step (run init (ops ++ [.endLife 0])).1 (.get 1)).2 = [.got 6] := by
  refine ⟨by simp [Sane], by decide +kernel, by decide +kernel⟩

/-! ### C15: ending a lifetime twice is harmless -/

/-- C15: a lifetime made by `NewLifetime` is ended (without a panic); whatever happens afterwards, including
recycling of its root for other lifetimes, ending it again has no effect at all.
The only condition on the client is that its allocations have an API; that is why the name says partial. -/
theorem end_twice_noop_partial (ops₀ ops₁ ops₂ : List Op) (c : Nat) (ha : ∀ op ∈ ops₀ ++ ops₁ ++ ops₂, HasApi op)
    (hok : Ev.crash ∉ (step (run init (ops₀ ++ .newLifetime c :: ops₁)).1 (.endLife (run init ops₀).1.lifes.length)).2) :
    let s := (run init (ops₀ ++ .newLifetime c :: ops₁ ++ .endLife (run init ops₀).1.lifes.length :: ops₂)).1
    step s (.endLife (run init ops₀).1.lifes.length) = (s, []) := by
  dsimp only
  have g0 := inv0_init.run ops₀ (fun o ho => ha o (by simp [ho]))
  have hcre : ∃ r, (newLifetime (run init ops₀).1 c).1.lifes = (run init ops₀).1.lifes ++ [r] ∧
      ((newLifetime (run init ops₀).1 c).1.heap r.ref).api = false := by
    unfold newLifetime
    split
    · exact ⟨_, rfl, by simp [St.upd]⟩
    · exact ⟨_, rfl, by simp [St.upd]⟩
  obtain ⟨r, hr1, hr2⟩ := hcre
  have g1 := g0.1.newLifetime c
  have hr3 : (newLifetime (run init ops₀).1 c).1.lifes[(run init ops₀).1.lifes.length]? = some r := by rw [hr1]; simp
  generalize (run init ops₀).1.lifes.length = l at *
  have hlt := (g1.1.lifes r (List.mem_of_getElem? hr3)).1
  have g2 := g1.1.run ops₁ (fun o ho => ha o (by simp [ho]))
  have e2 : run init (ops₀ ++ .newLifetime c :: ops₁) = ((run (newLifetime (run init ops₀).1 c).1 ops₁).1, (run init (ops₀ ++ .newLifetime c :: ops₁)).2) := by
    rw [run_append]; rfl
  have e3 : ∀ ops, (run init (ops₀ ++ .newLifetime c :: ops₁ ++ .endLife l :: ops)).1 =
      (run (step (run (newLifetime (run init ops₀).1 c).1 ops₁).1 (.endLife l)).1 ops).1 := by
    intro ops; rw [run_append, e2]; rfl
  rw [e2] at hok
  rw [e3]
  dsimp only at hok
  have hr4 := g2.2.lifes l r hr3
  have ha4 := (g2.2.root _ hlt hr2).1
  have hi2 := g2.1
  have hlt2 : r.ref < (run (newLifetime (run init ops₀).1 c).1 ops₁).1.size := Nat.lt_of_lt_of_le hlt g2.2.size
  generalize (run (newLifetime (run init ops₀).1 c).1 ops₁).1 = s at *
  have g3 := hi2.step (.endLife l) trivial
  have hrev : r.rev < ((step s (.endLife l)).1.heap r.ref).rev := by
    simp only [step, hr4] at hok ⊢
    by_cases hne : (s.heap r.ref).rev = r.rev
    · have hm := endLoop_root (root := r.ref) (s.size + 1) s r.ref ha4
      have hgood := Inv0.endLoop (root := r.ref) (s.size + 1) hi2
      have hb := hgood.1.bump r (List.mem_of_getElem? (hgood.2.lifes l r hr4)) hm.1 (by rw [hm.2, hne]) _ rfl
      have hbad : (endLoop s r.ref (s.size + 1)).2.2 = false := by
        cases e : (endLoop s r.ref (s.size + 1)).2.2 with
        | false => rfl
        | true =>
          exfalso
          apply hok
          have key : ∀ fuel s, (endLoop s r.ref fuel).2.2 = true → Ev.crash ∈ (endLoop s r.ref fuel).2.1 := by
            intro fuel
            induction fuel with
            | zero => intro s _; simp [endLoop]
            | succ fuel ih =>
              intro s h
              rw [endLoop] at h ⊢
              dsimp only at h ⊢
              split at h
              · rename_i hap
                rw [if_pos hap]
                split at h
                · rename_i hb
                  rw [if_pos hb]
                  unfold freeObj at hb ⊢
                  dsimp only at hb ⊢
                  split at hb
                  · cases hb
                  · rename_i hf; rw [if_neg hf]; simp
                · rename_i hb
                  rw [if_neg hb]
                  exact List.mem_append_right _ (ih _ h)
              · cases h
          have := key _ _ e
          unfold endLife
          rw [if_neg (by simp [hne]), ha4]
          simp only [Bool.false_eq_true, if_false, e, if_true]
          exact this
      unfold endLife
      rw [if_neg (by simp [hne]), ha4]
      simp only [Bool.false_eq_true, if_false, hbad]
      have : ∀ (t : St), (if (t.heap r.ref).rev < maxRevision then { t with roots := t.roots ++ [r.ref] } else t : St).heap = t.heap := by
        intro t; split <;> rfl
      rw [this]
      exact hb.2
    · have := ((hi2.lifes r (List.mem_of_getElem? hr4)).2 ha4).2
      unfold endLife
      rw [if_pos hne]
      dsimp only
      omega
  have ha5 := (g3.2.root _ hlt2 ha4).1
  have g4 := g3.1.run ops₂ (fun o ho => ha o (by simp [ho]))
  have hr6 := g4.2.lifes l r (g3.2.lifes l r hr4)
  have := (g4.2.root _ (Nat.lt_of_lt_of_le hlt2 g3.2.size) ha5).2
  simp only [step] at hr6 this hrev ⊢
  rw [hr6]
  dsimp only
  generalize (run (match s.lifes[l]? with | some h => endLife s h | none => (s, [])).1 ops₂).1 = s' at *
  unfold endLife
  rw [if_pos (by omega)]

/-- The root of lifetime 0 is recycled for lifetime 1; ending lifetime 0 again leaves pointer 1 alone. -/
example : (run init [.newLifetime 0, .new 0 0 true 5 false, .endLife 0, .newLifetime 0, .new 1 0 true 6 false, .endLife 0, .get 1]).2 =
    [.life ⟨0, 0⟩, .ptr ⟨1, 0⟩, .freed ⟨1, 0⟩ 5, .life ⟨0, 1⟩, .ptr ⟨1, 1⟩, .got 6] := by decide +kernel

/-- C15 for the lifetime of a pinned pointer (`Life`), for clients that never store zero: once ending it released the
pinned allocation, ending it again has no effect, whatever happens in between. -/
theorem end_pinned_twice_noop_partial (ops₁ ops₂ : List Op) (l : Nat) (r : Hdl) (v : Nat)
    (hs : ∀ op ∈ ops₁ ++ ops₂, Sane op) (hl : (run init ops₁).1.lifes[l]? = some r)
    (hfirst : (step (run init ops₁).1 (.endLife l)).2 = [.freed r.name v]) :
    let s := (run init (ops₁ ++ .endLife l :: ops₂)).1
    step s (.endLife l) = (s, []) := by
  dsimp only
  have i1 := inv1_init.run ops₁ (fun o ho => hs o (by simp [ho]))
  have i2 := i1.step (.endLife l) trivial
  have i3 := i2.run ops₂ (fun o ho => hs o (by simp [ho]))
  have m2 := (i1.base.step (.endLife l) trivial).2
  have m3 := (i2.base.run ops₂ (fun o ho => (hs o (by simp [ho])).hasApi)).2
  have hr := m3.lifes l r (m2.lifes l r hl)
  have hlt := i3.ended r.name (by rw [hfirst]; simp [ended])
  have e : (run init (ops₁ ++ .endLife l :: ops₂)).1 = (run (step (run init ops₁).1 (.endLife l)).1 ops₂).1 := by
    rw [run_append]; rfl
  rw [e]
  generalize (run (step (run init ops₁).1 (.endLife l)).1 ops₂).1 = s at *
  have hlt : r.rev % 2 ^ 62 < (s.heap r.ref).rev % 2 ^ 62 := hlt.2.2
  simp only [step, hr]
  unfold endLife
  rw [if_pos (by intro e; rw [e] at hlt; omega)]

example : let ops := [Op.newLifetime 0, .new 0 0 true 5 true, .life 0]
    (∀ op ∈ ops, Sane op) ∧ (step (run init ops).1 (.endLife 1)).2 = [.freed ⟨1, 0⟩ 5] := by
  refine ⟨by simp [Sane], by decide +kernel⟩

/-- With the zero value a pinned pointer's lifetime panics when ended twice. -/
theorem end_pinned_twice_noop_fails :
    (run init [.newLifetime 0, .new 0 0 true 0 true, .life 0, .endLife 1, .endLife 1]).2.getLast? = some .crash := by decide +kernel

end Verif.Mmm
