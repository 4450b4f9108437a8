import Verif.Mmm.Lemmas

/-! The invariant of histories that never store the zero value. -/
namespace Verif.Mmm

structure Inv1 (s : St) (E : List Hdl) : Prop where
  base : Inv0 s
  pool : ∀ b ∈ s.pool, (s.heap b).fin = false ∧ (s.heap b).rev < maxRevision
  poolNd : s.pool.Nodup
  fin : ∀ b, (s.heap b).fin = true → (s.heap b).rev % 2 ^ 62 < maxRevision ∧ (s.heap b).val ≠ 0
  ptrs : ∀ h ∈ s.ptrs, ((s.heap h.ref).fin = true ∧ (s.heap h.ref).rev % 2 ^ 62 = h.rev % 2 ^ 62) ∨
    h.rev % 2 ^ 62 < (s.heap h.ref).rev % 2 ^ 62
  ended : ∀ h ∈ E, h.ref < s.size ∧ (s.heap h.ref).api = true ∧ h.rev < (s.heap h.ref).rev % 2 ^ 62
  nd : E.Nodup
  sub : ∀ h ∈ E, h ∈ s.ptrs.map Hdl.name
  named : ∀ b, (s.heap b).fin = true → ⟨b, (s.heap b).rev % 2 ^ 62⟩ ∈ s.ptrs.map Hdl.name
  namesNd : (s.ptrs.map Hdl.name).Nodup

theorem ended_append (a b : List Ev) : ended (a ++ b) = ended a ++ ended b := by
  induction a with
  | nil => rfl
  | cons x t ih => cases x <;> simp [ended, ih]

/-- Changes that leave pointer blocks alone. -/
theorem Inv1.congr {s s' : St} {E} (h : Inv1 s E) (hb : Inv0 s') (hsz : s.size ≤ s'.size)
    (hc : ∀ i, i < s.size → (s.heap i).api = true → core (s'.heap i) = core (s.heap i))
    (hf : ∀ i, (s'.heap i).fin = true → (s.heap i).fin = true)
    (h2 : s'.pool = s.pool) (h4 : s'.ptrs = s.ptrs) : Inv1 s' E := by
  refine ⟨hb, ?_, by rw [h2]; exact h.poolNd, ?_, ?_, ?_, h.nd, by rw [h4]; exact h.sub, ?_, by rw [h4]; exact h.namesNd⟩
  · intro b hb'
    rw [h2] at hb'
    obtain ⟨a, b'⟩ := h.base.pool b hb'
    have := core_eq (hc b b' a)
    rw [this.1, this.2.2.1]; exact h.pool b hb'
  · intro b hb'
    have hb' := hf b hb'
    obtain ⟨a, b'⟩ := h.base.fin b hb'
    have := core_eq (hc b b' a)
    rw [this.1, this.2.2.2]; exact h.fin b hb'
  · intro k hk
    rw [h4] at hk
    obtain ⟨a, b⟩ := h.base.ptrs k hk
    have := core_eq (hc _ a b)
    rw [this.1, this.2.2.1]; exact h.ptrs k hk
  · intro k hk
    obtain ⟨a, b, c⟩ := h.ended k hk
    have := core_eq (hc _ a b)
    rw [this.1, this.2.1]; exact ⟨by omega, b, c⟩
  · intro b hb'
    have hb' := hf b hb'
    obtain ⟨a, b'⟩ := h.base.fin b hb'
    rw [(core_eq (hc b b' a)).1, h4]; exact h.named b hb'

theorem Inv1.unlink {s : St} {E} (h : Inv1 s E) (b : Nat) : Inv1 (s.unlink b) E :=
  h.congr (h.base.unlink b).1 (Nat.le_refl _) (fun i _ _ => unlink_core s b i)
    (fun i hi => by rwa [(core_eq (unlink_core s b i)).2.2.1] at hi) rfl rfl

theorem Inv1.endBlk {s : St} {E} (h : Inv1 s E) (b : Nat) (hb : (s.heap b).fin = true) :
    Inv1 (Mmm.endBlk s b).1 (E ++ [⟨b, (s.heap b).rev % 2 ^ 62⟩]) := by
  obtain ⟨f1, f2⟩ := h.base.fin b hb
  obtain ⟨f3, f4⟩ := h.fin b hb
  have e := endBlk_eff s b
  have hI := (h.base.endBlk f2 f1).1
  generalize (Mmm.endBlk s b).1 = s' at e hI ⊢
  have self := core_vals e.self
  have hrev : (s'.heap b).rev % 2 ^ 62 = (s.heap b).rev % 2 ^ 62 + 1 := by
    rw [self.1, if_pos f4]
    unfold maxRevision at f3; omega
  refine ⟨hI, ?_, ?_, ?_, ?_, ?_, ?_, ?_, ?_, by rw [e.ptrs]; exact h.namesNd⟩
  · intro c hc
    by_cases hcb : c = b
    · subst hcb
      refine ⟨self.2.2.1, ?_⟩
      rw [e.pool] at hc
      split at hc
      · assumption
      · have := (h.pool c hc).1; rw [hb] at this; cases this
    · have := core_eq (e.other c hcb)
      rw [this.1, this.2.2.1]
      apply h.pool
      rw [e.pool] at hc
      split at hc
      · simpa [hcb] using hc
      · exact hc
  · rw [e.pool]
    split
    · rw [List.nodup_append]
      refine ⟨h.poolNd, by simp, ?_⟩
      intro x hx y hy
      simp at hy; subst hy; rintro rfl
      have := (h.pool x hx).1; rw [hb] at this; cases this
    · exact h.poolNd
  · intro c hc
    by_cases hcb : c = b
    · subst hcb; rw [self.2.2.1] at hc; cases hc
    · have := core_eq (e.other c hcb)
      rw [this.2.2.1] at hc
      rw [this.1, this.2.2.2]; exact h.fin c hc
  · intro k hk
    rw [e.ptrs] at hk
    by_cases hkb : k.ref = b
    · right
      have := h.ptrs k hk
      rw [hkb] at this ⊢
      rw [hrev]
      omega
    · have := core_eq (e.other _ hkb)
      rw [this.1, this.2.2.1]; exact h.ptrs k hk
  · intro k hk
    rcases List.mem_append.mp hk with hk | hk
    · obtain ⟨a, b', c⟩ := h.ended k hk
      by_cases hkb : k.ref = b
      · rw [hkb] at c ⊢
        rw [hrev, self.2.1, e.size]
        exact ⟨f2, f1, by omega⟩
      · have := core_eq (e.other _ hkb)
        rw [this.1, this.2.1, e.size]; exact ⟨a, b', c⟩
    · simp at hk; subst hk
      dsimp only
      rw [hrev, self.2.1, e.size]
      exact ⟨f2, f1, by omega⟩
  · rw [List.nodup_append]
    refine ⟨h.nd, by simp, ?_⟩
    intro x hx y hy
    simp at hy; subst hy; rintro rfl
    have := (h.ended _ hx).2.2
    dsimp only at this; omega
  · intro k hk
    rw [e.ptrs]
    rcases List.mem_append.mp hk with hk | hk
    · exact h.sub k hk
    · simp only [List.mem_singleton] at hk; subst hk; exact h.named b hb
  · intro c hc
    by_cases hcb : c = b
    · subst hcb; rw [self.2.2.1] at hc; cases hc
    · have := core_eq (e.other c hcb)
      rw [this.2.2.1] at hc
      rw [this.1, e.ptrs]; exact h.named c hc

theorem Inv1.alloc {s : St} {E} (h : Inv1 s E) (l : Hdl) (choice v : Nat) (hv : v ≠ 0) :
    Inv1 { (Mmm.newRaw s l choice true v).1 with ptrs := (Mmm.newRaw s l choice true v).1.ptrs ++ [(Mmm.newRaw s l choice true v).2] } E ∧
      ((Mmm.newRaw s l choice true v).1.heap (Mmm.newRaw s l choice true v).2.ref).fin = true ∧
      ((Mmm.newRaw s l choice true v).1.heap (Mmm.newRaw s l choice true v).2.ref).rev = (Mmm.newRaw s l choice true v).2.rev ∧
      (s.heap (Mmm.newRaw s l choice true v).2.ref).fin = false ∧
      (Mmm.newRaw s l choice true v).2 ∉ s.ptrs.map Hdl.name := by
  have e := newRaw_eff s l choice true v
  have hN := h.base.newRaw l choice v
  have hI := (hN.1.1.push _ hN.2.1 hN.2.2).1
  clear hN
  generalize (Mmm.newRaw s l choice true v).1 = s' at e hI ⊢
  generalize (Mmm.newRaw s l choice true v).2 = k at e hI ⊢
  have self := core_vals e.self
  have hk : (s.heap k.ref).fin = false ∧ k.rev < maxRevision ∧ (k.ref < s.size → k.rev = (s.heap k.ref).rev) ∧ s.size ≤ s'.size := by
    rcases e.which with ⟨w1, w2, w3, w4⟩ | ⟨w1, w2, w3, w4, w5⟩
    · have := h.pool _ (List.mem_of_getElem? w1)
      exact ⟨this.1, by rw [w4]; exact this.2, fun _ => w4, by omega⟩
    · refine ⟨?_, by rw [w5]; decide, fun _ => by omega, by omega⟩
      cases hf : (s.heap k.ref).fin with
      | false => rfl
      | true => have := (h.base.fin _ hf).2; omega
  have hnew : k ∉ s.ptrs.map Hdl.name := by
    intro hm
    obtain ⟨p, hp, hpk⟩ := List.mem_map.mp hm
    have h1 : p.ref = k.ref := by rw [← hpk]; rfl
    have h2 : p.rev % 2 ^ 62 = k.rev := by rw [← hpk]; rfl
    have := h.ptrs p hp
    rw [h1, h2, ← hk.2.2.1 (by rw [← h1]; exact (h.base.ptrs p hp).1)] at this
    rcases this with ⟨t, _⟩ | t
    · rw [hk.1] at t; cases t
    · have := Nat.mod_le k.rev (2 ^ 62); omega
  have hname : k.name = k := by
    have h1 := hk.2.1
    show (⟨k.ref, k.rev % 2 ^ 62⟩ : Hdl) = k
    rw [Nat.mod_eq_of_lt (by unfold maxRevision at h1; omega)]
  refine ⟨⟨hI, ?_, ?_, ?_, ?_, ?_, h.nd, ?_, ?_, ?_⟩, self.2.2.1, self.1, hk.1, hnew⟩
  · intro c hc
    have hc' : c ∈ s.pool ∧ c ≠ k.ref := by
      rcases e.which with ⟨w1, w2, w3, w4⟩ | ⟨w1, w2, w3, w4, w5⟩
      · rw [w2] at hc
        refine ⟨List.mem_of_mem_eraseIdx hc, ?_⟩
        rintro rfl
        obtain ⟨hlt, he⟩ := List.getElem?_eq_some_iff.mp w1
        obtain ⟨j, hj, hjc, hjr⟩ := List.mem_eraseIdx_iff_getElem.mp hc
        exact hjc ((List.getElem_inj h.poolNd).mp (hjr.trans he.symm))
      · rw [w2] at hc
        refine ⟨hc, ?_⟩
        have := (h.base.pool c hc).2
        omega
    have := core_eq (e.other c hc'.2)
    rw [this.1, this.2.2.1]; exact h.pool c hc'.1
  · rcases e.which with ⟨w1, w2, w3, w4⟩ | ⟨w1, w2, w3, w4, w5⟩
    · rw [w2]; exact h.poolNd.sublist (List.eraseIdx_sublist ..)
    · rw [w2]; exact h.poolNd
  · intro c hc
    by_cases hi : c = k.ref
    · subst hi
      rw [self.1, self.2.2.2]
      refine ⟨?_, hv⟩
      have := hk.2.1
      exact Nat.lt_of_le_of_lt (Nat.mod_le _ _) this
    · have := core_eq (e.other c hi)
      rw [this.2.2.1] at hc
      rw [this.1, this.2.2.2]; exact h.fin c hc
  · intro p hp
    show ((s'.heap p.ref).fin = true ∧ (s'.heap p.ref).rev % 2 ^ 62 = p.rev % 2 ^ 62) ∨ p.rev % 2 ^ 62 < (s'.heap p.ref).rev % 2 ^ 62
    have hp : p ∈ s'.ptrs ++ [k] := hp
    rw [e.ptrs] at hp
    rcases List.mem_append.mp hp with hp | hp
    rotate_left
    · simp only [List.mem_singleton] at hp; subst hp; rw [self.2.2.1, self.1]; exact .inl ⟨rfl, rfl⟩
    by_cases hi : p.ref = k.ref
    · rw [hi, self.1, self.2.2.1]
      have := h.ptrs p hp
      rw [hi] at this
      rw [hk.2.2.1 (by rw [← hi]; exact (h.base.ptrs p hp).1)]
      rcases this with ⟨t, _⟩ | t
      · rw [hk.1] at t; cases t
      · right; exact t
    · have := core_eq (e.other _ hi)
      rw [this.1, this.2.2.1]; exact h.ptrs p hp
  · intro p hp
    obtain ⟨a, b, c⟩ := h.ended p hp
    show p.ref < s'.size ∧ (s'.heap p.ref).api = true ∧ p.rev < (s'.heap p.ref).rev % 2 ^ 62
    by_cases hi : p.ref = k.ref
    · rw [hi, self.1, self.2.1]
      rw [hk.2.2.1 (by rw [← hi]; exact a), ← hi]
      exact ⟨by omega, rfl, c⟩
    · have := core_eq (e.other _ hi)
      rw [this.1, this.2.1]; exact ⟨by omega, b, c⟩
  · intro x hx
    show x ∈ (s'.ptrs ++ [k]).map Hdl.name
    rw [e.ptrs, List.map_append]; exact List.mem_append_left _ (h.sub x hx)
  · intro c hc
    show (⟨c, (s'.heap c).rev % 2 ^ 62⟩ : Hdl) ∈ (s'.ptrs ++ [k]).map Hdl.name
    have hc : (s'.heap c).fin = true := hc
    rw [e.ptrs, List.map_append]
    by_cases hi : c = k.ref
    · subst hi
      apply List.mem_append_right
      rw [self.1]; simp [Hdl.name]
    · have := core_eq (e.other c hi)
      rw [this.2.2.1] at hc
      rw [this.1]
      exact List.mem_append_left _ (h.named c hc)
  · show ((s'.ptrs ++ [k]).map Hdl.name).Nodup
    rw [e.ptrs, List.map_append, List.nodup_append]
    refine ⟨h.namesNd, by simp, ?_⟩
    intro x hx y hy
    simp only [List.map_cons, List.map_nil, List.mem_singleton] at hy
    subst hy
    rw [hname]
    rintro rfl; exact hnew hx

theorem pinRev_mod (r : Nat) : pinRev r % 2 ^ 62 = r % 2 ^ 62 := by
  unfold pinRev; split <;> omega

/-- Updates of a live pointer block that keep `api`, `fin` and the revision number. -/
theorem Inv1.updPtr {s : St} {E} (h : Inv1 s E) (b : Nat) (hb : (s.heap b).fin = true) (f : Blk → Blk)
    (hf : ∀ x, (f x).api = x.api ∧ (f x).fin = x.fin ∧ (f x).rev % 2 ^ 62 = x.rev % 2 ^ 62)
    (hv : (f (s.heap b)).val ≠ 0) : Inv1 (s.upd b f) E := by
  have hbb := h.base.fin b hb
  have hI := (h.base.updPtr b hbb.1 f (fun x => ⟨(hf x).1, (hf x).2.1⟩)).1
  have e : ∀ i, ((s.upd b f).heap i).api = (s.heap i).api ∧ ((s.upd b f).heap i).fin = (s.heap i).fin ∧
      ((s.upd b f).heap i).rev % 2 ^ 62 = (s.heap i).rev % 2 ^ 62 := by
    intro i; simp only [St.upd]; split
    · exact hf _
    · exact ⟨rfl, rfl, rfl⟩
  refine ⟨hI, ?_, h.poolNd, ?_, ?_, ?_, h.nd, h.sub, ?_, h.namesNd⟩
  · intro c hc
    have hc' := h.pool c hc
    have : c ≠ b := by intro e; rw [e, hb] at hc'; cases hc'.1
    simpa [St.upd, this] using hc'
  · intro c hc
    rw [(e c).2.1] at hc
    rw [(e c).2.2]
    refine ⟨(h.fin c hc).1, ?_⟩
    by_cases hcb : c = b
    · subst hcb; simpa [St.upd] using hv
    · simpa [St.upd, hcb] using (h.fin c hc).2
  · intro p hp; rw [(e _).2.1, (e _).2.2]; exact h.ptrs p hp
  · intro p hp; rw [(e _).1, (e _).2.2]; exact h.ended p hp
  · intro c hc; rw [(e c).2.1] at hc; rw [(e c).2.2]; exact h.named c hc

theorem Inv1.freeObj {s : St} {E} (h : Inv1 s E) (b : Nat) :
    Inv1 (Mmm.freeObj s b).1 (E ++ Mmm.ended (Mmm.freeObj s b).2.1) := by
  unfold Mmm.freeObj
  dsimp only
  have hu := h.unlink b
  split
  · rename_i hf
    have := hu.endBlk b hf
    simpa [Mmm.ended] using this
  · simpa [Mmm.ended] using hu

theorem Inv1.endLoop {root : Nat} (fuel : Nat) : ∀ {s : St} {E}, Inv1 s E →
    Inv1 (Mmm.endLoop s root fuel).1 (E ++ Mmm.ended (Mmm.endLoop s root fuel).2.1) := by
  induction fuel with
  | zero => intro s E h; simpa [Mmm.endLoop, Mmm.ended] using h
  | succ fuel ih =>
    intro s E h
    rw [Mmm.endLoop]
    dsimp only
    split
    · have hf := h.freeObj (s.heap root).nxt
      split
      · exact hf
      · have := ih hf
        rw [ended_append, ← List.append_assoc]
        exact this
    · simpa [Mmm.ended] using h

theorem Inv1.bump {s : St} {E} (h : Inv1 s E) (l : Hdl) (hl : l ∈ s.lifes) (ha : (s.heap l.ref).api = false)
    (hr : (s.heap l.ref).rev = l.rev) (t : St) (ht : t = s.upd l.ref fun x => { x with rev := (x.rev + 1) % 2 ^ 64 }) :
    Inv1 (if (t.heap l.ref).rev < maxRevision then { t with roots := t.roots ++ [l.ref] } else t) E := by
  have hI := (h.base.bump l hl ha hr t ht).1.1
  have hh : (if (t.heap l.ref).rev < maxRevision then { t with roots := t.roots ++ [l.ref] } else t : St).heap = t.heap ∧
      (if (t.heap l.ref).rev < maxRevision then { t with roots := t.roots ++ [l.ref] } else t : St).size = s.size ∧
      (if (t.heap l.ref).rev < maxRevision then { t with roots := t.roots ++ [l.ref] } else t : St).pool = s.pool ∧
      (if (t.heap l.ref).rev < maxRevision then { t with roots := t.roots ++ [l.ref] } else t : St).ptrs = s.ptrs := by
    subst ht; split <;> exact ⟨rfl, rfl, rfl, rfl⟩
  refine h.congr hI (by rw [hh.2.1]; exact Nat.le_refl _) ?_ ?_ hh.2.2.1 hh.2.2.2
  · intro i _ hi
    have : i ≠ l.ref := by rintro rfl; rw [ha] at hi; cases hi
    rw [hh.1, ht]; simp [St.upd, this]
  · intro i hi
    rw [hh.1, ht] at hi
    simp only [St.upd] at hi
    split at hi <;> exact hi

theorem Inv1.endLife {s : St} {E} (h : Inv1 s E) (l : Hdl) (hl : l ∈ s.lifes) :
    Inv1 (Mmm.endLife s l).1 (E ++ Mmm.ended (Mmm.endLife s l).2) := by
  unfold Mmm.endLife
  split
  · simpa [Mmm.ended] using h
  · rename_i hr
    simp only [ne_eq, Classical.not_not] at hr
    split
    · exact h.freeObj _
    · rename_i ha
      have hg := h.endLoop (root := l.ref) (s.size + 1)
      have hg0 := Inv0.endLoop (root := l.ref) (s.size + 1) h.base
      dsimp only
      split
      · exact hg
      · have ha' : (s.heap l.ref).api = false := by simpa using ha
        obtain ⟨i, hi⟩ := List.getElem?_of_mem hl
        have hm := endLoop_root (root := l.ref) (s.size + 1) s l.ref ha'
        exact hg.bump l (List.mem_of_getElem? (hg0.2.lifes i l hi)) hm.1 (by rw [hm.2, hr]) _ rfl

theorem Inv1.newLifetime {s : St} {E} (h : Inv1 s E) (c : Nat) : Inv1 (Mmm.newLifetime s c).1 E := by
  have hI := (h.base.newLifetime c)
  unfold Mmm.newLifetime at hI ⊢
  split
  · rename_i r hr
    simp only [hr] at hI
    have hra := (h.base.roots r (List.mem_of_getElem? hr)).1
    refine h.congr hI.1 hI.2.size ?_ ?_ rfl rfl
    · intro i _ hi
      have : i ≠ r := by rintro rfl; rw [hra] at hi; cases hi
      simp [St.upd, this]
    · intro i hi
      simp only [St.upd] at hi
      split at hi <;> exact hi
  · rename_i hr
    simp only [hr] at hI
    refine h.congr hI.1 hI.2.size ?_ ?_ rfl rfl
    · intro i hi' hi
      have : i ≠ s.size := by omega
      simp [St.upd, this]
    · intro i hi
      simp only [St.upd] at hi
      split at hi
      · cases hi
      · exact hi

theorem Inv1.live_of_match {s : St} {E} (h : Inv1 s E) {k : Hdl} (hk : k ∈ s.ptrs)
    (hm : matchesRev (s.heap k.ref).rev k.rev = true) : (s.heap k.ref).fin = true := by
  rcases h.ptrs k hk with ⟨a, _⟩ | a
  · exact a
  · simp [matchesRev] at hm; omega

theorem Inv1.step {s : St} {E} (h : Inv1 s E) (op : Op) (ho : Sane op) :
    Inv1 (Mmm.step s op).1 (E ++ Mmm.ended (Mmm.step s op).2) := by
  have h0 : Inv1 s (E ++ Mmm.ended []) := by simpa [Mmm.ended] using h
  have hcr : Inv1 s (E ++ Mmm.ended [Ev.crash]) := by simpa [Mmm.ended] using h
  cases op with
  | newLifetime c =>
    have := h.newLifetime c
    have e : Mmm.ended (Mmm.newLifetime s c).2 = [] := by unfold Mmm.newLifetime; split <;> rfl
    simp only [Mmm.step]
    rw [e, List.append_nil]; exact this
  | new l c api v pin =>
    simp only [Sane] at ho
    obtain ⟨rfl, hv⟩ := ho
    simp only [Mmm.step]
    split
    · rename_i k hk
      unfold newPtr
      dsimp only
      obtain ⟨n1, n2, n3, _⟩ := h.alloc k c v hv
      simp only [Mmm.ended, List.append_nil]
      cases pin
      · simp only [Bool.false_eq_true, if_false]
        exact n1
      · simp only [if_true]
        exact n1.updPtr _ n2 (fun x => { x with rev := pinRev x.rev }) (fun x => ⟨rfl, rfl, pinRev_mod _⟩) (n1.fin _ n2).2
    · exact h0
  | get p =>
    simp only [Mmm.step]
    split
    · unfold Mmm.get
      split <;> simpa [Mmm.ended] using h
    · exact h0
  | set p v =>
    simp only [Sane] at ho
    simp only [Mmm.step]
    split
    · rename_i k hk
      unfold Mmm.set
      split
      · rename_i hm
        simp only [Mmm.ended, List.append_nil]
        exact h.updPtr _ (h.live_of_match (List.mem_of_getElem? hk) hm) (fun x => { x with val := v }) (fun x => ⟨rfl, rfl, rfl⟩) ho
      · exact hcr
    · exact h0
  | free p =>
    simp only [Mmm.step]
    split
    · rename_i k hk
      unfold Mmm.freePtr
      split
      · rename_i hm
        have := h.endBlk k.ref (h.live_of_match (List.mem_of_getElem? hk) hm)
        simp [matchesRev] at hm
        simpa [Mmm.ended, hm] using this
      · exact hcr
    · exact h0
  | move p l c =>
    simp only [Mmm.step]
    split
    · rename_i k j hk hj
      unfold Mmm.move
      split
      · exact hcr
      · split
        · exact hcr
        · rename_i hm
          have hm : matchesRev (s.heap k.ref).rev k.rev = true := by simpa using hm
          have hl := h.live_of_match (List.mem_of_getElem? hk) hm
          have e := h.endBlk k.ref hl
          have hv : (Mmm.endBlk s k.ref).2 ≠ 0 := (h.fin _ hl).2
          dsimp only
          rw [(h.base.fin _ hl).1]
          obtain ⟨n1, n2, n3, _⟩ := e.alloc j c _ hv
          simp [matchesRev] at hm
          simpa [Mmm.ended, hm] using n1
    · exact h0
  | life p =>
    simp only [Mmm.step]
    split
    · rename_i k hk
      have hg := (h.base.step (.life p) trivial).1
      simp only [Mmm.step, hk] at hg
      unfold Mmm.life at hg ⊢
      split
      · rename_i hp
        rw [if_pos hp] at hg
        simp only [Mmm.ended, List.append_nil]
        exact ⟨hg, h.pool, h.poolNd, h.fin, h.ptrs, h.ended, h.nd, h.sub, h.named, h.namesNd⟩
      · exact hcr
    · exact h0
  | endLife l =>
    simp only [Mmm.step]
    split
    · rename_i k hk; exact h.endLife k (List.mem_of_getElem? hk)
    · exact h0

theorem Inv1.run (ops : List Op) : ∀ {s : St} {E}, Inv1 s E → (∀ op ∈ ops, Sane op) →
    Inv1 (Mmm.run s ops).1 (E ++ Mmm.ended (Mmm.run s ops).2) := by
  induction ops with
  | nil => intro s E h _; simpa [Mmm.run, Mmm.ended] using h
  | cons op t ih =>
    intro s E h ho
    have h1 := h.step op (ho op (by simp))
    have := ih h1 (fun o hm => ho o (by simp [hm]))
    simp only [Mmm.run]
    rw [ended_append, ← List.append_assoc]
    exact this

theorem inv1_init : Inv1 init [] := by
  refine ⟨inv0_init, ?_, ?_, ?_, ?_, ?_, ?_, ?_, ?_, ?_⟩ <;> simp [init]

end Verif.Mmm
