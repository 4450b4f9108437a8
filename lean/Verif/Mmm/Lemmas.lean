import Verif.Mmm.Spec

/-! Invariants of the memory manager. -/
namespace Verif.Mmm

/-- Everything about a block except its links. -/
def core (x : Blk) : Nat × Bool × Bool × Nat := (x.rev, x.api, x.fin, x.val)

theorem core_eq {x y : Blk} (h : core x = core y) :
    x.rev = y.rev ∧ x.api = y.api ∧ x.fin = y.fin ∧ x.val = y.val := by
  simpa [core] using h

theorem core_vals {x : Blk} {a b c d} (h : core x = (a, b, c, d)) :
    x.rev = a ∧ x.api = b ∧ x.fin = c ∧ x.val = d := by
  simpa [core] using h

theorem unlink_core (s : St) (b i : Nat) : core ((s.unlink b).heap i) = core (s.heap i) := by
  simp only [St.unlink, St.upd, core]
  split <;> (try split) <;> rfl

/-- The effect of `endBlk`, links aside. -/
structure EndEff (s : St) (b : Nat) (s' : St) (v : Nat) : Prop where
  val : v = (s.heap b).val
  other : ∀ i, i ≠ b → core (s'.heap i) = core (s.heap i)
  self : core (s'.heap b) = (if (s.heap b).val ≠ 0 then ((s.heap b).rev + 1) % 2 ^ 64 else (s.heap b).rev,
    (s.heap b).api, false, 0)
  pool : s'.pool = if (s'.heap b).rev < maxRevision then s.pool ++ [b] else s.pool
  size : s'.size = s.size
  roots : s'.roots = s.roots
  ptrs : s'.ptrs = s.ptrs
  lifes : s'.lifes = s.lifes

theorem link_core (s : St) (r b i : Nat) : core ((s.link r b).heap i) = core (s.heap i) := by
  simp only [St.link, St.upd, core]
  split <;> (try split) <;> rfl

theorem endBlk_heap (s : St) (b : Nat) : (endBlk s b).1.heap = ((s.upd b retire).unlink b).heap := by
  unfold endBlk; dsimp only; split <;> rfl

theorem endBlk_eff (s : St) (b : Nat) : EndEff s b (endBlk s b).1 (endBlk s b).2 := by
  refine ⟨rfl, fun i hi => ?_, ?_, ?_, ?_, ?_, ?_, ?_⟩
  · rw [endBlk_heap, unlink_core]; simp [St.upd, hi]
  · rw [endBlk_heap, unlink_core]; simp only [St.upd, core, retire, if_pos]
    by_cases hv : (s.heap b).val = 0 <;> simp [hv]
  · rw [endBlk_heap]; unfold endBlk; dsimp only; split <;> rfl
  all_goals (unfold endBlk; dsimp only; split <;> rfl)

/-- The effect of `newRaw`, links aside. -/
structure NewEff (s : St) (choice : Nat) (api : Bool) (v : Nat) (s' : St) (h : Hdl) : Prop where
  other : ∀ i, i ≠ h.ref → core (s'.heap i) = core (s.heap i)
  self : core (s'.heap h.ref) = (h.rev, api, true, v)
  roots : s'.roots = s.roots
  ptrs : s'.ptrs = s.ptrs
  lifes : s'.lifes = s.lifes
  which : (s.pool[choice]? = some h.ref ∧ s'.pool = s.pool.eraseIdx choice ∧ s'.size = s.size ∧
      h.rev = (s.heap h.ref).rev) ∨
    (s.pool[choice]? = none ∧ s'.pool = s.pool ∧ h.ref = s.size ∧ s'.size = s.size + 1 ∧ h.rev = 0)

theorem newRaw_eff (s : St) (l : Hdl) (choice : Nat) (api : Bool) (v : Nat) :
    NewEff s choice api v (newRaw s l choice api v).1 (newRaw s l choice api v).2 := by
  cases hp : s.pool[choice]? with
  | some b =>
    have hb : newBlock s choice = ({ s with pool := s.pool.eraseIdx choice }, b) := by simp [newBlock, hp]
    have hr : ∀ i, core ((newRaw s l choice api v).1.heap i) =
        if i = b then ((s.heap b).rev, api, true, v) else core (s.heap i) := by
      intro i; simp only [newRaw, hb]; rw [link_core]; simp only [St.upd]
      by_cases hi : i = b
      · subst hi; simp [core]
      · simp [hi]
    have href : (newRaw s l choice api v).2.ref = b := by simp [newRaw, hb]
    have hrev : (newRaw s l choice api v).2.rev = (s.heap b).rev := by
      have := (core_eq (x := (newRaw s l choice api v).1.heap b) (y := ⟨(s.heap b).rev, api, 0, 0, true, v⟩)
        (by rw [hr]; simp [core])).1
      rw [← this]; simp [newRaw, hb]
    refine ⟨fun i hi => by rw [hr, if_neg (by rwa [href] at hi)], ?_, ?_, ?_, ?_, .inl ⟨?_, ?_, ?_, ?_⟩⟩
    · rw [href, hr, hrev]; simp
    · simp [newRaw, hb, St.link, St.upd]
    · simp [newRaw, hb, St.link, St.upd]
    · simp [newRaw, hb, St.link, St.upd]
    · rw [href, hp]
    · simp [newRaw, hb, St.link, St.upd]
    · simp [newRaw, hb, St.link, St.upd]
    · rw [href, hrev]
  | none =>
    have hb : newBlock s choice = ({ (s.upd s.size fun _ => ⟨0, false, 0, 0, false, 0⟩) with size := s.size + 1 }, s.size) := by
      simp [newBlock, hp]
    have hr : ∀ i, core ((newRaw s l choice api v).1.heap i) =
        if i = s.size then (0, api, true, v) else core (s.heap i) := by
      intro i; simp only [newRaw, hb]; rw [link_core]; simp only [St.upd]
      by_cases hi : i = s.size
      · subst hi; simp [core]
      · simp [hi]
    have href : (newRaw s l choice api v).2.ref = s.size := by simp [newRaw, hb]
    have hrev : (newRaw s l choice api v).2.rev = 0 := by
      have := (core_eq (x := (newRaw s l choice api v).1.heap s.size) (y := ⟨0, api, 0, 0, true, v⟩)
        (by rw [hr]; simp [core])).1
      exact Eq.trans (by simp [newRaw, hb]) this
    refine ⟨fun i hi => by rw [hr, if_neg (by rwa [href] at hi)], ?_, ?_, ?_, ?_, .inr ⟨?_, ?_, ?_, ?_, ?_⟩⟩
    · rw [href, hr, hrev]; simp
    · simp [newRaw, hb, St.link, St.upd]
    · simp [newRaw, hb, St.link, St.upd]
    · simp [newRaw, hb, St.link, St.upd]
    · exact hp
    · simp [newRaw, hb, St.link, St.upd]
    · exact href
    · simp [newRaw, hb, St.link, St.upd]
    · exact hrev

/-! ### The invariant of histories whose allocations have an API -/

structure Inv0 (s : St) : Prop where
  pool : ∀ b ∈ s.pool, (s.heap b).api = true ∧ b < s.size
  roots : ∀ r ∈ s.roots, (s.heap r).api = false ∧ (s.heap r).rev < maxRevision ∧ r < s.size
  rootsNd : s.roots.Nodup
  lifes : ∀ l ∈ s.lifes, l.ref < s.size ∧
    ((s.heap l.ref).api = false → l.rev < maxRevision ∧ l.rev ≤ (s.heap l.ref).rev)
  rootLife : ∀ r ∈ s.roots, ∀ l ∈ s.lifes, l.ref = r → l.rev < (s.heap r).rev
  ptrs : ∀ h ∈ s.ptrs, h.ref < s.size ∧ (s.heap h.ref).api = true
  fin : ∀ b, (s.heap b).fin = true → (s.heap b).api = true ∧ b < s.size
  api : ∀ b, (s.heap b).api = true → b < s.size

/-- Roots stay roots and their revisions never decrease. -/
structure Mono (s s' : St) : Prop where
  size : s.size ≤ s'.size
  root : ∀ i, i < s.size → (s.heap i).api = false → (s'.heap i).api = false ∧ (s.heap i).rev ≤ (s'.heap i).rev
  lifes : ∀ l : Nat, ∀ h, s.lifes[l]? = some h → s'.lifes[l]? = some h
  ptrs : ∀ l : Nat, ∀ h, s.ptrs[l]? = some h → s'.ptrs[l]? = some h

/-- A transition that keeps the invariant and is monotone. -/
def Good (s s' : St) : Prop := Inv0 s' ∧ Mono s s'

theorem Mono.refl (s : St) : Mono s s := ⟨Nat.le_refl _, fun _ _ h => ⟨h, Nat.le_refl _⟩, fun _ _ h => h, fun _ _ h => h⟩

theorem Mono.trans {a b c : St} (h : Mono a b) (k : Mono b c) : Mono a c := by
  refine ⟨Nat.le_trans h.size k.size, fun i hi ha => ?_, fun l x hx => k.lifes l x (h.lifes l x hx),
    fun l x hx => k.ptrs l x (h.ptrs l x hx)⟩
  obtain ⟨h1, h2⟩ := h.root i hi ha
  obtain ⟨k1, k2⟩ := k.root i (Nat.lt_of_lt_of_le hi h.size) h1
  exact ⟨k1, Nat.le_trans h2 k2⟩

theorem Good.trans {a b c : St} (h : Good a b) (k : Good b c) : Good a c := ⟨k.1, h.2.trans k.2⟩

theorem getElem?_append_some {α} {l m : List α} {i : Nat} {x : α} (h : l[i]? = some x) : (l ++ m)[i]? = some x := by
  rw [List.getElem?_append_left (List.getElem?_eq_some_iff.mp h).1]; exact h

/-- Anything that changes neither the client's variables nor the roots, keeps `api` everywhere and keeps
the revision of roots preserves `Inv0`. -/
theorem Inv0.frame {s s' : St} (h : Inv0 s) (hsz : s.size ≤ s'.size)
    (hp : ∀ b ∈ s'.pool, (s'.heap b).api = true ∧ b < s'.size)
    (hr : s'.roots = s.roots) (hl : s'.lifes = s.lifes)
    (hpt : s'.ptrs = s.ptrs ∨ ∃ k, s'.ptrs = s.ptrs ++ [k] ∧ k.ref < s'.size ∧ (s'.heap k.ref).api = true)
    (hapi : ∀ i, i < s.size → (s'.heap i).api = (s.heap i).api)
    (hrev : ∀ i, i < s.size → (s.heap i).api = false → (s'.heap i).rev = (s.heap i).rev)
    (hfin : ∀ b, (s'.heap b).fin = true → (s'.heap b).api = true ∧ b < s'.size)
    (hout : ∀ b, (s'.heap b).api = true → b < s'.size) : Good s s' := by
  refine ⟨⟨hp, ?_, by rw [hr]; exact h.rootsNd, ?_, ?_, ?_, hfin, hout⟩, ⟨hsz, fun i hi ha => ⟨by rw [hapi i hi]; exact ha,
    by rw [hrev i hi ha]; exact Nat.le_refl _⟩, fun l x hx => by rw [hl]; exact hx, fun l x hx => ?_⟩⟩
  · intro r hr'
    rw [hr] at hr'
    obtain ⟨a, b, c⟩ := h.roots r hr'
    rw [hapi r c, hrev r c a]
    exact ⟨a, b, by omega⟩
  · intro l hl'
    rw [hl] at hl'
    obtain ⟨a, b⟩ := h.lifes l hl'
    refine ⟨by omega, ?_⟩
    rw [hapi _ a]
    intro e
    rw [hrev _ a e]
    exact b e
  · intro r hr' l hl' e
    rw [hr] at hr'; rw [hl] at hl'
    obtain ⟨a, b, c⟩ := h.roots r hr'
    rw [hrev r c a]
    exact h.rootLife r hr' l hl' e
  · intro k hk
    rcases hpt with hpt | ⟨k', hpt, hk'⟩
    · rw [hpt] at hk
      obtain ⟨a, b⟩ := h.ptrs k hk
      exact ⟨by omega, by rw [hapi _ a]; exact b⟩
    · rw [hpt] at hk
      rcases List.mem_append.mp hk with hk | hk
      · obtain ⟨a, b⟩ := h.ptrs k hk
        exact ⟨by omega, by rw [hapi _ a]; exact b⟩
      · simp at hk; subst hk; exact hk'
  · rcases hpt with hpt | ⟨k', hpt, hk'⟩
    · rw [hpt]; exact hx
    · rw [hpt]; exact getElem?_append_some hx

theorem Inv0.endBlk {s : St} (h : Inv0 s) {b : Nat} (hb : b < s.size) (ha : (s.heap b).api = true) :
    Good s (Mmm.endBlk s b).1 := by
  have e := endBlk_eff s b
  have self := core_vals e.self
  have api : ∀ i, ((Mmm.endBlk s b).1.heap i).api = (s.heap i).api := by
    intro i
    by_cases hi : i = b
    · subst hi; rw [self.2.1]
    · exact (core_eq (e.other i hi)).2.1
  refine h.frame (by rw [e.size]; omega) ?_ e.roots e.lifes (.inl e.ptrs)
    (fun i _ => api i) ?_ ?_ ?_
  · intro c hc
    rw [api, e.size]
    rw [e.pool] at hc
    split at hc
    · rcases List.mem_append.mp hc with hc | hc
      · exact h.pool c hc
      · simp at hc; subst hc; exact ⟨ha, hb⟩
    · exact h.pool c hc
  · intro i _ hi
    have : i ≠ b := by rintro rfl; rw [ha] at hi; cases hi
    exact (core_eq (e.other i this)).1
  · intro c hc
    by_cases hi : c = b
    · subst hi; rw [self.2.2.1] at hc; cases hc
    · rw [(core_eq (e.other c hi)).2.2.1] at hc
      rw [api, e.size]; exact h.fin c hc
  · intro c hc; rw [api] at hc; rw [e.size]; exact h.api c hc

theorem Inv0.newRaw {s : St} (h : Inv0 s) (l : Hdl) (choice v : Nat) :
    Good s (Mmm.newRaw s l choice true v).1 ∧ (Mmm.newRaw s l choice true v).2.ref < (Mmm.newRaw s l choice true v).1.size ∧
      ((Mmm.newRaw s l choice true v).1.heap (Mmm.newRaw s l choice true v).2.ref).api = true := by
  have e := newRaw_eff s l choice true v
  generalize (Mmm.newRaw s l choice true v).1 = s' at e ⊢
  generalize (Mmm.newRaw s l choice true v).2 = k at e ⊢
  have self := core_vals e.self
  have hsz : s.size ≤ s'.size ∧ k.ref < s'.size := by
    rcases e.which with ⟨w1, w2, w3, w4⟩ | ⟨w1, w2, w3, w4, w5⟩
    · have := (h.pool _ (List.mem_of_getElem? w1)).2
      omega
    · omega
  have hk : k.ref < s.size → (s.heap k.ref).api = true := by
    intro hlt
    rcases e.which with ⟨w1, w2, w3, w4⟩ | ⟨w1, w2, w3, w4, w5⟩
    · exact (h.pool _ (List.mem_of_getElem? w1)).1
    · omega
  have api : ∀ i, i < s.size → (s'.heap i).api = (s.heap i).api := by
    intro i hi'
    by_cases hi : i = k.ref
    · subst hi; rw [self.2.1, hk hi']
    · exact (core_eq (e.other i hi)).2.1
  refine ⟨h.frame hsz.1 ?_ e.roots e.lifes (.inl e.ptrs) api ?_ ?_ ?_, hsz.2, self.2.1⟩
  · intro c hc
    have hc' : c ∈ s.pool := by
      rcases e.which with ⟨w1, w2, w3, w4⟩ | ⟨w1, w2, w3, w4, w5⟩
      · rw [w2] at hc; exact List.mem_of_mem_eraseIdx hc
      · rwa [w2] at hc
    obtain ⟨a, b⟩ := h.pool c hc'
    rw [api c b]; exact ⟨a, by omega⟩
  · intro i hi ha
    have : i ≠ k.ref := by rintro rfl; rw [hk hi] at ha; cases ha
    exact (core_eq (e.other i this)).1
  · intro c hc
    by_cases hi : c = k.ref
    · subst hi; exact ⟨self.2.1, hsz.2⟩
    · have := core_eq (e.other c hi)
      rw [this.2.2.1] at hc
      obtain ⟨a, b⟩ := h.fin c hc
      rw [this.2.1]; exact ⟨a, by omega⟩
  · intro c hc
    by_cases hi : c = k.ref
    · subst hi; exact hsz.2
    · rw [(core_eq (e.other c hi)).2.1] at hc
      have := h.api c hc; omega

/-- Changing only links keeps the invariant. -/
theorem Inv0.congr {s s' : St} (h : Inv0 s) (hc : ∀ i, core (s'.heap i) = core (s.heap i)) (h1 : s'.size = s.size)
    (h2 : s'.pool = s.pool) (h3 : s'.roots = s.roots) (h4 : s'.ptrs = s.ptrs) (h5 : s'.lifes = s.lifes) : Good s s' := by
  refine h.frame (by omega) ?_ h3 h5 (.inl h4) (fun i _ => (core_eq (hc i)).2.1)
    (fun i _ _ => (core_eq (hc i)).1) ?_ ?_
  · intro b hb; rw [(core_eq (hc b)).2.1, h1]; rw [h2] at hb; exact h.pool b hb
  · intro b hb; rw [(core_eq (hc b)).2.1, h1]; rw [(core_eq (hc b)).2.2.1] at hb; exact h.fin b hb
  · intro b hb; rw [(core_eq (hc b)).2.1] at hb; rw [h1]; exact h.api b hb

theorem Inv0.unlink {s : St} (h : Inv0 s) (b : Nat) : Good s (s.unlink b) :=
  h.congr (unlink_core s b) rfl rfl rfl rfl rfl

theorem Inv0.freeObj {s : St} (h : Inv0 s) (b : Nat) (ha : (s.heap b).api = true) :
    Good s (Mmm.freeObj s b).1 := by
  unfold Mmm.freeObj
  dsimp only
  have hu := h.unlink b
  split
  · exact hu.trans (hu.1.endBlk (h.api b ha) (by rw [(core_eq (unlink_core s b b)).2.1]; exact ha))
  · exact hu

theorem Inv0.endLoop {root : Nat} (fuel : Nat) : ∀ {s : St}, Inv0 s → Good s (Mmm.endLoop s root fuel).1 := by
  induction fuel with
  | zero => intro s h; exact ⟨h, Mono.refl s⟩
  | succ fuel ih =>
    intro s h
    rw [Mmm.endLoop]
    dsimp only
    split
    · rename_i ha
      have hf := h.freeObj _ ha
      split
      · exact hf
      · exact hf.trans (ih hf.1)
    · exact ⟨h, Mono.refl s⟩

/-- The end of `Lifetime.End`: bumping the root's revision and recycling it. -/
theorem Inv0.bump {s : St} (h : Inv0 s) (l : Hdl) (hl : l ∈ s.lifes) (ha : (s.heap l.ref).api = false)
    (hr : (s.heap l.ref).rev = l.rev) (t : St) (ht : t = s.upd l.ref fun x => { x with rev := (x.rev + 1) % 2 ^ 64 }) :
    Good s (if (t.heap l.ref).rev < maxRevision then { t with roots := t.roots ++ [l.ref] } else t) ∧
    l.rev < (t.heap l.ref).rev := by
  obtain ⟨h1, h2⟩ := h.lifes l hl
  obtain ⟨h2, h3⟩ := h2 ha
  have hrev : ∀ i, (t.heap i).rev = if i = l.ref then (s.heap i).rev + 1 else (s.heap i).rev := by
    intro i; subst ht; simp only [St.upd]
    by_cases hi : i = l.ref
    · subst hi; simp; unfold maxRevision at h2; omega
    · simp [hi]
  have hoth : ∀ i, (t.heap i).api = (s.heap i).api ∧ (t.heap i).fin = (s.heap i).fin := by
    intro i; subst ht; simp only [St.upd]; split <;> exact ⟨rfl, rfl⟩
  have e : t.size = s.size ∧ t.pool = s.pool ∧ t.roots = s.roots ∧ t.lifes = s.lifes ∧ t.ptrs = s.ptrs := by
    subst ht; exact ⟨rfl, rfl, rfl, rfl, rfl⟩
  obtain ⟨e1, e2, e3, e4, e5⟩ := e
  have hnr : l.ref ∉ s.roots := by
    intro hc
    have := h.rootLife _ hc l hl rfl
    omega
  have hI : Inv0 t := by
    refine ⟨?_, ?_, by rw [e3]; exact h.rootsNd, ?_, ?_, ?_, ?_, ?_⟩
    · intro b hb; rw [(hoth b).1, e1]; rw [e2] at hb; exact h.pool b hb
    · intro r hr'
      rw [e3] at hr'
      have : r ≠ l.ref := by rintro rfl; exact hnr hr'
      rw [(hoth r).1, hrev, if_neg this, e1]; exact h.roots r hr'
    · intro k hk
      rw [e4] at hk
      obtain ⟨a, b⟩ := h.lifes k hk
      rw [(hoth _).1, hrev, e1]
      refine ⟨a, fun hb => ?_⟩
      obtain ⟨b1, b2⟩ := b hb
      refine ⟨b1, ?_⟩
      split <;> omega
    · intro r hr' k hk ek
      rw [e3] at hr'; rw [e4] at hk
      have := h.rootLife r hr' k hk ek
      rw [hrev]; split <;> omega
    · intro k hk
      rw [e5] at hk; rw [(hoth _).1, e1]; exact h.ptrs k hk
    · intro b hb; rw [(hoth b).1, e1]; rw [(hoth b).2] at hb; exact h.fin b hb
    · intro b hb; rw [(hoth b).1] at hb; rw [e1]; exact h.api b hb
  have hM : Mono s t := by
    refine ⟨by omega, fun i hi hai => ⟨by rw [(hoth i).1]; exact hai, ?_⟩, fun j x hx => by rw [e4]; exact hx, fun j x hx => by rw [e5]; exact hx⟩
    rw [hrev]; split <;> omega
  refine ⟨?_, by rw [hrev, if_pos rfl]; omega⟩
  split
  · rename_i hlt
    refine ⟨⟨hI.pool, ?_, ?_, hI.lifes, ?_, hI.ptrs, hI.fin, hI.api⟩, ⟨hM.size, hM.root, hM.lifes, hM.ptrs⟩⟩
    · intro r hr'
      rcases List.mem_append.mp hr' with hr' | hr'
      · exact hI.roots r hr'
      · simp at hr'; subst hr'
        refine ⟨by rw [(hoth _).1]; exact ha, hlt, ?_⟩
        show l.ref < t.size
        omega
    · rw [List.nodup_append]
      refine ⟨hI.rootsNd, by simp, ?_⟩
      intro a ha' b hb'
      simp at hb'; subst hb'
      rintro rfl; rw [e3] at ha'; exact hnr ha'
    · intro r hr' k hk ek
      rcases List.mem_append.mp hr' with hr' | hr'
      · exact hI.rootLife r hr' k hk ek
      · simp at hr'; subst hr'
        have hk' : k ∈ s.lifes := by rw [← e4]; exact hk
        have := (h.lifes k hk').2 (by rw [ek]; exact ha)
        rw [ek] at this
        show k.rev < (t.heap l.ref).rev
        rw [hrev, if_pos rfl]; omega
  · exact ⟨hI, hM⟩

theorem mem_of_getElem?_some {α} {l : List α} {i : Nat} {x : α} (h : l[i]? = some x) : x ∈ l := List.mem_of_getElem? h

theorem freeObj_root (s : St) (b : Nat) (hb : (s.heap b).api = true) (i : Nat) (hi : (s.heap i).api = false) :
    ((Mmm.freeObj s b).1.heap i).api = false ∧ ((Mmm.freeObj s b).1.heap i).rev = (s.heap i).rev := by
  have hne : i ≠ b := by rintro rfl; rw [hb] at hi; cases hi
  have hu := core_eq (unlink_core s b i)
  unfold Mmm.freeObj
  dsimp only
  split
  · have e := core_eq ((endBlk_eff (s.unlink b) b).other i hne)
    exact ⟨by rw [e.2.1, hu.2.1, hi], by rw [e.1, hu.1]⟩
  · exact ⟨by rw [hu.2.1, hi], hu.1⟩

theorem endLoop_root {root : Nat} (fuel : Nat) : ∀ (s : St) (i : Nat), (s.heap i).api = false →
    ((Mmm.endLoop s root fuel).1.heap i).api = false ∧
    ((Mmm.endLoop s root fuel).1.heap i).rev = (s.heap i).rev := by
  induction fuel with
  | zero => intro s i h; exact ⟨h, rfl⟩
  | succ fuel ih =>
    intro s i h
    rw [Mmm.endLoop]
    dsimp only
    split
    · rename_i ha
      have hf := freeObj_root s _ ha i h
      split
      · exact hf
      · have := ih _ i hf.1
        exact ⟨this.1, by rw [this.2, hf.2]⟩
    · exact ⟨h, rfl⟩

theorem Inv0.endLife {s : St} (h : Inv0 s) (l : Hdl) (hl : l ∈ s.lifes) : Good s (Mmm.endLife s l).1 := by
  unfold Mmm.endLife
  split
  · exact ⟨h, Mono.refl s⟩
  · rename_i hr
    simp only [ne_eq, Classical.not_not] at hr
    split
    · rename_i ha; exact h.freeObj _ ha
    · rename_i ha
      have hg := Inv0.endLoop (root := l.ref) (s.size + 1) h
      dsimp only
      split
      · exact hg
      · have ha' : (s.heap l.ref).api = false := by simpa using ha
        obtain ⟨i, hi⟩ := List.getElem?_of_mem hl
        have hm := endLoop_root (root := l.ref) (s.size + 1) s l.ref ha'
        exact hg.trans (hg.1.bump l (List.mem_of_getElem? (hg.2.lifes i l hi)) hm.1 (by rw [hm.2, hr]) _ rfl).1

theorem Inv0.newLifetime {s : St} (h : Inv0 s) (c : Nat) : Good s (Mmm.newLifetime s c).1 := by
  unfold Mmm.newLifetime
  split
  · rename_i r hr
    have hrm := List.mem_of_getElem? hr
    obtain ⟨r1, r2, r3⟩ := h.roots r hrm
    have hc : ∀ i, core ((({ s with roots := s.roots.eraseIdx c } : St).upd r fun x => { x with api := false }).heap i) = core (s.heap i) := by
      intro i
      simp only [St.upd, core]
      split
      · rename_i hi; subst hi; simp [r1]
      · rfl
    dsimp only
    generalize hs : (({ s with roots := s.roots.eraseIdx c } : St).upd r fun x => { x with api := false }) = t at hc
    have e1 : t.size = s.size := by subst hs; rfl
    have e2 : t.pool = s.pool := by subst hs; rfl
    have e3 : t.roots = s.roots.eraseIdx c := by subst hs; rfl
    have e4 : t.lifes = s.lifes := by subst hs; rfl
    have e5 : t.ptrs = s.ptrs := by subst hs; rfl
    have hrn : r ∉ s.roots.eraseIdx c := by
      intro hm
      obtain ⟨hlt, he⟩ := List.getElem?_eq_some_iff.mp hr
      have := (List.mem_eraseIdx_iff_getElem.mp hm)
      obtain ⟨j, hj, hjc, hjr⟩ := this
      have := (List.getElem_inj h.rootsNd).mp (hjr.trans he.symm)
      exact hjc this
    have hrs : ∀ x ∈ t.roots, x ∈ s.roots := by
      intro x hx; rw [e3] at hx; exact List.mem_of_mem_eraseIdx hx
    refine ⟨⟨?_, ?_, ?_, ?_, ?_, ?_, ?_, ?_⟩, ⟨?_, ?_, ?_, ?_⟩⟩
    · intro b hb
      show (t.heap b).api = true ∧ b < t.size
      rw [(core_eq (hc b)).2.1, e1]; exact h.pool b (by rw [← e2]; exact hb)
    · intro x hx
      show (t.heap x).api = false ∧ (t.heap x).rev < maxRevision ∧ x < t.size
      rw [(core_eq (hc x)).2.1, (core_eq (hc x)).1, e1]; exact h.roots x (hrs x hx)
    · show t.roots.Nodup
      rw [e3]; exact h.rootsNd.sublist (List.eraseIdx_sublist ..)
    · intro l hl
      show l.ref < t.size ∧ ((t.heap l.ref).api = false → l.rev < maxRevision ∧ l.rev ≤ (t.heap l.ref).rev)
      rw [(core_eq (hc _)).2.1, (core_eq (hc _)).1, e1]
      rcases List.mem_append.mp hl with hl | hl
      · exact h.lifes l (by rw [← e4]; exact hl)
      · simp at hl; subst hl
        rw [(core_eq (hc _)).1]
        exact ⟨r3, fun _ => ⟨r2, Nat.le_refl _⟩⟩
    · intro x hx l hl el
      show l.rev < (t.heap x).rev
      rw [(core_eq (hc _)).1]
      rcases List.mem_append.mp hl with hl | hl
      · exact h.rootLife x (hrs x hx) l (by rw [← e4]; exact hl) el
      · simp at hl; subst hl
        simp at el
        subst el
        exact absurd (by rw [← e3]; exact hx) hrn
    · intro k hk
      show k.ref < t.size ∧ (t.heap k.ref).api = true
      rw [(core_eq (hc _)).2.1, e1]; exact h.ptrs k (by rw [← e5]; exact hk)
    · intro b hb
      show (t.heap b).api = true ∧ b < t.size
      have hb : (t.heap b).fin = true := hb
      rw [(core_eq (hc _)).2.2.1] at hb
      rw [(core_eq (hc _)).2.1, e1]; exact h.fin b hb
    · intro b hb
      have hb : (t.heap b).api = true := hb
      show b < t.size
      rw [(core_eq (hc _)).2.1] at hb
      rw [e1]; exact h.api b hb
    · show s.size ≤ t.size
      omega
    · intro i hi ha
      show (t.heap i).api = false ∧ (s.heap i).rev ≤ (t.heap i).rev
      rw [(core_eq (hc _)).2.1, (core_eq (hc _)).1]; exact ⟨ha, Nat.le_refl _⟩
    · intro j x hx
      show (t.lifes ++ _)[j]? = _
      exact getElem?_append_some (by rw [e4]; exact hx)
    · intro j x hx
      show t.ptrs[j]? = _
      rw [e5]; exact hx
  · dsimp only
    have hc : ∀ i, i ≠ s.size → (({ s with size := s.size + 1 } : St).upd s.size fun _ => ⟨0, false, s.size, s.size, false, 0⟩).heap i = s.heap i := by
      intro i hi; simp [St.upd, hi]
    have hcs : (({ s with size := s.size + 1 } : St).upd s.size fun _ => ⟨0, false, s.size, s.size, false, 0⟩).heap s.size = ⟨0, false, s.size, s.size, false, 0⟩ := by
      simp [St.upd]
    generalize hs : (({ s with size := s.size + 1 } : St).upd s.size fun _ => ⟨0, false, s.size, s.size, false, 0⟩) = t at hc hcs
    have e1 : t.size = s.size + 1 := by subst hs; rfl
    have e2 : t.pool = s.pool := by subst hs; rfl
    have e3 : t.roots = s.roots := by subst hs; rfl
    have e4 : t.lifes = s.lifes := by subst hs; rfl
    have e5 : t.ptrs = s.ptrs := by subst hs; rfl
    refine ⟨⟨?_, ?_, ?_, ?_, ?_, ?_, ?_, ?_⟩, ⟨?_, ?_, ?_, ?_⟩⟩
    · intro b hb
      show (t.heap b).api = true ∧ b < t.size
      have := h.pool b (by rw [← e2]; exact hb)
      rw [hc b (by omega), e1]; exact ⟨this.1, by omega⟩
    · intro x hx
      show (t.heap x).api = false ∧ (t.heap x).rev < maxRevision ∧ x < t.size
      have := h.roots x (by rw [← e3]; exact hx)
      rw [hc x (by omega), e1]; exact ⟨this.1, this.2.1, by omega⟩
    · show t.roots.Nodup
      rw [e3]; exact h.rootsNd
    · intro l hl
      show l.ref < t.size ∧ ((t.heap l.ref).api = false → l.rev < maxRevision ∧ l.rev ≤ (t.heap l.ref).rev)
      rcases List.mem_append.mp hl with hl | hl
      · have := h.lifes l (by rw [← e4]; exact hl)
        rw [hc _ (by omega), e1]; exact ⟨by omega, this.2⟩
      · simp at hl; subst hl
        rw [e1]; exact ⟨by simp, fun _ => by simp [maxRevision]⟩
    · intro x hx l hl el
      show l.rev < (t.heap x).rev
      have hx' := h.roots x (by rw [← e3]; exact hx)
      rw [hc x (by omega)]
      rcases List.mem_append.mp hl with hl | hl
      · exact h.rootLife x (by rw [← e3]; exact hx) l (by rw [← e4]; exact hl) el
      · simp at hl; subst hl
        simp at el; omega
    · intro k hk
      show k.ref < t.size ∧ (t.heap k.ref).api = true
      have := h.ptrs k (by rw [← e5]; exact hk)
      rw [hc _ (by omega), e1]; exact ⟨by omega, this.2⟩
    · intro b hb
      show (t.heap b).api = true ∧ b < t.size
      have hb : (t.heap b).fin = true := hb
      by_cases hbs : b = s.size
      · subst hbs; rw [hcs] at hb; cases hb
      · rw [hc _ hbs] at hb ⊢
        have := h.fin b hb
        rw [e1]; exact ⟨this.1, by omega⟩
    · intro b hb
      have hb : (t.heap b).api = true := hb
      show b < t.size
      by_cases hbs : b = s.size
      · omega
      · rw [hc _ hbs] at hb
        have := h.api b hb; omega
    · show s.size ≤ t.size
      omega
    · intro i hi ha
      show (t.heap i).api = false ∧ (s.heap i).rev ≤ (t.heap i).rev
      rw [hc i (by omega)]; exact ⟨ha, Nat.le_refl _⟩
    · intro j x hx
      show (t.lifes ++ _)[j]? = _
      exact getElem?_append_some (by rw [e4]; exact hx)
    · intro j x hx
      show t.ptrs[j]? = _
      rw [e5]; exact hx

/-- Updates of one pointer block that keep `api` and `fin`. -/
theorem Inv0.updPtr {s : St} (h : Inv0 s) (b : Nat) (hb : (s.heap b).api = true) (f : Blk → Blk)
    (hf : ∀ x, (f x).api = x.api ∧ (f x).fin = x.fin) : Good s (s.upd b f) := by
  have e : ∀ i, ((s.upd b f).heap i).api = (s.heap i).api ∧ ((s.upd b f).heap i).fin = (s.heap i).fin := by
    intro i; simp only [St.upd]; split
    · exact hf _
    · exact ⟨rfl, rfl⟩
  refine h.frame (Nat.le_refl _) ?_ rfl rfl (.inl rfl) (fun i _ => (e i).1) ?_ ?_ ?_
  · intro c hc; rw [(e c).1]; exact h.pool c hc
  · intro i _ ha
    have : i ≠ b := by rintro rfl; rw [hb] at ha; cases ha
    simp [St.upd, this]
  · intro c hc; rw [(e c).1]; rw [(e c).2] at hc; exact h.fin c hc
  · intro c hc; rw [(e c).1] at hc; exact h.api c hc

/-- Handing a pointer to the client. -/
theorem Inv0.push {s : St} (h : Inv0 s) (k : Hdl) (hk : k.ref < s.size) (ha : (s.heap k.ref).api = true) :
    Good s { s with ptrs := s.ptrs ++ [k] } :=
  h.frame (Nat.le_refl _) h.pool rfl rfl (.inr ⟨k, rfl, hk, ha⟩) (fun _ _ => rfl) (fun _ _ _ => rfl) h.fin h.api

theorem Good.refl {s : St} (h : Inv0 s) : Good s s := ⟨h, Mono.refl s⟩

theorem Inv0.step {s : St} (h : Inv0 s) (op : Op) (ho : HasApi op) : Good s (Mmm.step s op).1 := by
  cases op with
  | newLifetime c => exact h.newLifetime c
  | new l c api v pin =>
    simp only [HasApi] at ho; subst ho
    simp only [Mmm.step]
    split
    · rename_i k hk
      unfold newPtr
      dsimp only
      obtain ⟨n1, n2, n3⟩ := h.newRaw k c v
      cases pin
      · simp only [Bool.false_eq_true, if_false]
        exact n1.trans (n1.1.push _ n2 n3)
      · simp only [if_true]
        have u := n1.1.updPtr _ n3 (fun x => { x with rev := pinRev x.rev }) (fun x => ⟨rfl, rfl⟩)
        refine n1.trans (u.trans (u.1.push _ n2 ?_))
        simp only [St.upd, if_true]; exact n3
    · exact .refl h
  | get p =>
    simp only [Mmm.step]; split <;> exact .refl h
  | set p v =>
    simp only [Mmm.step]
    split
    · rename_i k hk
      unfold Mmm.set
      split
      · exact h.updPtr _ (h.ptrs k (List.mem_of_getElem? hk)).2 (fun x => { x with val := v }) (fun x => ⟨rfl, rfl⟩)
      · exact .refl h
    · exact .refl h
  | free p =>
    simp only [Mmm.step]
    split
    · rename_i k hk
      unfold Mmm.freePtr
      have := h.ptrs k (List.mem_of_getElem? hk)
      split
      · exact h.endBlk this.1 this.2
      · exact .refl h
    · exact .refl h
  | move p l c =>
    simp only [Mmm.step]
    split
    · rename_i k j hk hj
      unfold Mmm.move
      have hk' := h.ptrs k (List.mem_of_getElem? hk)
      split
      · exact .refl h
      · split
        · exact .refl h
        · dsimp only
          rw [hk'.2]
          have e := h.endBlk hk'.1 hk'.2
          obtain ⟨n1, n2, n3⟩ := e.1.newRaw j c (Mmm.endBlk s k.ref).2
          exact e.trans (n1.trans (n1.1.push _ n2 n3))
    · exact .refl h
  | life p =>
    simp only [Mmm.step]
    split
    · rename_i k hk
      unfold Mmm.life
      have hk' := h.ptrs k (List.mem_of_getElem? hk)
      split
      · dsimp only
        refine ⟨⟨h.pool, h.roots, h.rootsNd, ?_, ?_, h.ptrs, h.fin, h.api⟩, ⟨Nat.le_refl _, fun _ _ ha => ⟨ha, Nat.le_refl _⟩, fun j x hx => getElem?_append_some hx, fun _ _ hx => hx⟩⟩
        · intro l hl
          rcases List.mem_append.mp hl with hl | hl
          · exact h.lifes l hl
          · simp at hl; subst hl
            refine ⟨hk'.1, fun ha => ?_⟩
            have ha : (s.heap k.ref).api = false := ha
            rw [hk'.2] at ha; cases ha
        · intro r hr l hl el
          rcases List.mem_append.mp hl with hl | hl
          · exact h.rootLife r hr l hl el
          · simp at hl; subst hl
            have := (h.roots r hr).1
            rw [← el] at this
            have this : (s.heap k.ref).api = false := this
            rw [hk'.2] at this; cases this
      · exact .refl h
    · exact .refl h
  | endLife l =>
    simp only [Mmm.step]
    split
    · rename_i k hk; exact h.endLife k (List.mem_of_getElem? hk)
    · exact .refl h

theorem Inv0.run (ops : List Op) : ∀ {s : St}, Inv0 s → (∀ op ∈ ops, HasApi op) → Good s (Mmm.run s ops).1 := by
  induction ops with
  | nil => intro s h _; exact .refl h
  | cons op t ih =>
    intro s h ho
    have h1 := h.step op (ho op (by simp))
    exact h1.trans (ih h1.1 (fun o hm => ho o (by simp [hm])))

theorem inv0_init : Inv0 init := by
  refine ⟨?_, ?_, ?_, ?_, ?_, ?_, ?_, ?_⟩ <;> simp [init]

end Verif.Mmm
