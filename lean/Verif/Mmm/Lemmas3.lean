import Verif.Mmm.Lemmas2

/-! Disciplined histories: the linked lists are exactly the abstract stacks. -/
namespace Verif.Mmm

/-- The pointer `p` with handle `h` is alive and holds what the abstract state says. -/
def LiveP (s : St) (a : Abs) (p : Nat) (h : Hdl) : Prop :=
  s.ptrs[p]? = some h ∧ (s.heap h.ref).fin = true ∧ (s.heap h.ref).rev % 2 ^ 62 = h.rev % 2 ^ 62 ∧
    a.vals[p]? = some (s.heap h.ref).val ∧ a.pins[p]? = some (isPinned (s.heap h.ref).rev)

/-- Following `nxt` from `prev` visits the blocks of the pointers and comes back to the root `r`. -/
def Chain (s : St) (a : Abs) (r : Nat) : Nat → List Nat → Prop
  | prev, [] => (s.heap prev).nxt = r
  | prev, p :: t => ∃ h, LiveP s a p h ∧ (s.heap prev).nxt = h.ref ∧ (s.heap h.ref).prv = r ∧ Chain s a r h.ref t

structure Sim (s : St) (a : Abs) : Prop where
  inv : ∃ E, Inv1 s E
  lenV : a.vals.length = s.ptrs.length
  lenP : a.pins.length = s.ptrs.length
  lenL : a.lifes.length = s.lifes.length
  root : ∀ (l : Nat) h, s.lifes[l]? = some h → (s.heap h.ref).api = false
  life : ∀ (l : Nat) h st, s.lifes[l]? = some h → a.lifes[l]? = some (some st) →
    (s.heap h.ref).rev = h.rev ∧ (s.heap h.ref).prv = h.ref ∧ Chain s a h.ref h.ref st
  gone : ∀ (l : Nat) h, s.lifes[l]? = some h → a.lifes[l]? = some none → h.rev < (s.heap h.ref).rev
  roots : ∀ r ∈ s.roots, (s.heap r).prv = r ∧ (s.heap r).nxt = r
  distinct : ∀ (l l' : Nat) h h' st st', s.lifes[l]? = some h → s.lifes[l']? = some h' →
    a.lifes[l]? = some (some st) → a.lifes[l']? = some (some st') → h.ref = h'.ref → l = l'
  disjoint : ∀ (l l' : Nat) st st' (p : Nat), a.lifes[l]? = some (some st) → a.lifes[l']? = some (some st') →
    p ∈ st → p ∈ st' → l = l'
  nodup : ∀ (l : Nat) st, a.lifes[l]? = some (some st) → st.Nodup
  dead : ∀ (p : Nat) h, s.ptrs[p]? = some h → ¬ a.Live p → h.rev % 2 ^ 62 < (s.heap h.ref).rev % 2 ^ 62

theorem Chain.mem {s a r} : ∀ {prev st}, Chain s a r prev st → ∀ p ∈ st, ∃ h, LiveP s a p h
  | _, [], _, p, hp => by cases hp
  | _, q :: t, ⟨h, h1, h2, h3, h4⟩, p, hp => by
    rcases List.mem_cons.mp hp with e | hp
    · subst e; exact ⟨h, h1⟩
    · exact Chain.mem h4 p hp

theorem Chain.frame {s s' : St} {a a' : Abs} {r : Nat} : ∀ {prev st}, Chain s a r prev st →
    (s'.heap prev).nxt = (s.heap prev).nxt →
    (∀ p ∈ st, ∀ h, LiveP s a p h → LiveP s' a' p h ∧ (s'.heap h.ref).nxt = (s.heap h.ref).nxt ∧
      (s'.heap h.ref).prv = (s.heap h.ref).prv) → Chain s' a' r prev st
  | _, [], hc, h1, _ => by rw [Chain] at hc ⊢; rw [h1]; exact hc
  | _, p :: t, ⟨h, c1, c2, c3, c4⟩, h1, h2 => by
    obtain ⟨l1, l2, l3⟩ := h2 p (by simp) h c1
    exact ⟨h, l1, by rw [h1]; exact c2, by rw [l3]; exact c3, Chain.frame c4 l2 (fun q hq => h2 q (by simp [hq]))⟩

theorem Sim.live_ptr {s a} (h : Sim s a) {p : Nat} (hp : a.Live p) : ∃ k, LiveP s a p k := by
  obtain ⟨l, st, h1, h2⟩ := hp
  have hl : l < s.lifes.length := by
    rw [← h.lenL]; exact (List.getElem?_eq_some_iff.mp h1).1
  obtain ⟨_, _, hc⟩ := h.life l _ st (List.getElem?_eq_getElem hl) h1
  exact hc.mem p h2

/-- Two live pointers with the same block are the same pointer. -/
theorem LiveP.inj {s a p q h k} {E} (hI : Inv1 s E) (hp : LiveP s a p h) (hq : LiveP s a q k) (e : h.ref = k.ref) : p = q := by
  obtain ⟨p1, p2, p3, _⟩ := hp
  obtain ⟨q1, q2, q3, _⟩ := hq
  have hn : h.name = k.name := by
    show (⟨h.ref, h.rev % 2 ^ 62⟩ : Hdl) = ⟨k.ref, k.rev % 2 ^ 62⟩
    rw [← p3, ← q3, e]
  obtain ⟨i1, i2⟩ := List.getElem?_eq_some_iff.mp p1
  obtain ⟨j1, j2⟩ := List.getElem?_eq_some_iff.mp q1
  apply (List.getElem_inj (h₀ := by simpa using i1) (h₁ := by simpa using j1) hI.namesNd).mp
  simp [i2, j2, hn]

theorem LiveP.api {s a p h} {E} (hI : Inv1 s E) (hp : LiveP s a p h) : (s.heap h.ref).api = true ∧ h.ref < s.size :=
  hI.base.fin _ hp.2.1

theorem Sim.live_of_match {s a} (hS : Sim s a) {p : Nat} {h : Hdl} (hp : s.ptrs[p]? = some h)
    (hm : matchesRev (s.heap h.ref).rev h.rev = true) : a.Live p := by
  apply Classical.byContradiction
  intro hn
  have := hS.dead p h hp hn
  simp [matchesRev] at hm
  omega

theorem Sim.match_of_live {s a} (hS : Sim s a) {p : Nat} {h : Hdl} (hp : s.ptrs[p]? = some h)
    (hl : a.Live p) : LiveP s a p h ∧ matchesRev (s.heap h.ref).rev h.rev = true := by
  obtain ⟨k, hk⟩ := hS.live_ptr hl
  have : k = h := by have := hk.1; rw [hp] at this; cases this; rfl
  subst this
  exact ⟨hk, by simp [matchesRev]; exact hk.2.2.1⟩

/-! ### Ending the newest pointer of a lifetime -/

/-- What `endBlk` does to the links when the block is the first of the list of root `r`. -/
theorem endBlk_links (s : St) (b r : Nat) (hp : (s.heap b).prv = r) (hbr : b ≠ r) (hn : (s.heap b).nxt ≠ b)
    (hnp : (s.heap (s.heap b).nxt).prv = r) :
    (∀ i, i ≠ b → i ≠ r → (endBlk s b).1.heap i = s.heap i) ∧
    (endBlk s b).1.heap r = { s.heap r with nxt := (s.heap b).nxt } := by
  rw [endBlk_heap]
  have e1 : ((s.upd b retire).heap b).prv = r := by simp [St.upd, retire]; split <;> exact hp
  have e2 : ((s.upd b retire).heap b).nxt = (s.heap b).nxt := by simp [St.upd, retire]; split <;> rfl
  constructor
  · intro i hib hir
    simp only [St.unlink, e1, e2]
    simp only [St.upd, if_neg hib, if_neg hir]
    split
    · rename_i hi; subst hi
      have : s.heap (s.heap b).nxt = { s.heap (s.heap b).nxt with prv := r } := by
        cases hx : s.heap (s.heap b).nxt; rw [hx] at hnp; simp at hnp; simp [hnp]
      exact this.symm
    · rfl
  · simp only [St.unlink, e1, e2]
    simp only [St.upd, if_neg (Ne.symm hbr), if_true]
    split
    · rename_i hi
      have h3 : (s.heap r).prv = r := by rw [← hi] at hnp; exact hnp
      simp [h3]
    · rfl

theorem remove_lookup {a : Abs} {p l : Nat} {o : Option (List Nat)} (h : (a.remove p).lifes[l]? = some o) :
    ∃ o', a.lifes[l]? = some o' ∧ o = o'.map (List.filter (· ≠ p)) := by
  simp only [Abs.remove, List.getElem?_map, Option.map_eq_some_iff] at h
  obtain ⟨o', h1, h2⟩ := h
  exact ⟨o', h1, h2.symm⟩

theorem remove_live {a : Abs} {p q : Nat} : (a.remove p).Live q ↔ a.Live q ∧ q ≠ p := by
  constructor
  · rintro ⟨l, st, h1, h2⟩
    obtain ⟨o', e1, e2⟩ := remove_lookup h1
    cases o' with
    | none => cases e2
    | some st' =>
      simp only [Option.map_some, Option.some.injEq] at e2
      subst e2
      rw [List.mem_filter] at h2
      exact ⟨⟨l, st', e1, h2.1⟩, by simpa using h2.2⟩
  · rintro ⟨⟨l, st, h1, h2⟩, h3⟩
    refine ⟨l, st.filter (· ≠ p), ?_, ?_⟩
    · simp [Abs.remove, h1]
    · rw [List.mem_filter]; exact ⟨h2, by simpa using h3⟩

/-- Ending the newest pointer of a lifetime keeps the simulation. -/
theorem Sim.endNewest {s a} (hS : Sim s a) {l p : Nat} {t : List Nat} {h : Hdl} {r : Hdl}
    (hl : a.lifes[l]? = some (some (p :: t))) (hr : s.lifes[l]? = some r) (hp : s.ptrs[p]? = some h) :
    Sim (endBlk s h.ref).1 (a.remove p) ∧ (endBlk s h.ref).2 = a.vals.getD p 0 ∧
    endBlk (s.unlink h.ref) h.ref = endBlk s h.ref := by
  obtain ⟨E, hI⟩ := hS.inv
  obtain ⟨c1, c2, hc⟩ := hS.life l r (p :: t) hr hl
  obtain ⟨k, hk, k2, k3, k4⟩ := hc
  have : k = h := by have := hk.1; rw [hp] at this; cases this; rfl
  subst this
  have hka := hk.api hI
  have hra := hS.root l r hr
  have hbr : k.ref ≠ r.ref := by intro e; rw [e, hra] at hka; cases hka.1
  have hnd := hS.nodup l _ hl
  -- the successor of the block is another block of the list or the root
  have hsucc : (s.heap k.ref).nxt ≠ k.ref ∧ (s.heap (s.heap k.ref).nxt).prv = r.ref := by
    cases t with
    | nil => rw [Chain] at k4; rw [k4]; exact ⟨Ne.symm hbr, c2⟩
    | cons q t =>
      obtain ⟨j, j1, j2, j3, j4⟩ := k4
      rw [j2]
      refine ⟨?_, j3⟩
      intro e
      have := LiveP.inj hI j1 hk e
      subst this
      simp at hnd
  have hlinks := endBlk_links s k.ref r.ref k3 hbr hsucc.1 hsucc.2
  have heff := endBlk_eff s k.ref
  have hself := core_vals heff.self
  have hval : (endBlk s k.ref).2 = (s.heap k.ref).val := rfl
  have hI' := hI.endBlk k.ref hk.2.1
  have hunl : endBlk (s.unlink k.ref) k.ref = endBlk s k.ref := by
    have hheap : ((s.unlink k.ref).upd k.ref retire).unlink k.ref = (s.upd k.ref retire).unlink k.ref := by
      have u : ∀ i, (s.unlink k.ref).heap i = if i = r.ref then { s.heap r.ref with nxt := (s.heap k.ref).nxt } else s.heap i := by
        intro i
        simp only [St.unlink, k3]
        simp only [St.upd]
        by_cases hin : i = (s.heap k.ref).nxt
        · by_cases hir : i = r.ref
          · rw [if_pos hin, if_pos hir, if_pos hir]; rw [hir]; simp [c2]
          · rw [if_pos hin, if_neg hir, if_neg hir]
            have : s.heap i = { s.heap i with prv := r.ref } := by
              have hx' := hsucc.2
              rw [← hin] at hx'
              cases hx : s.heap i; rw [hx] at hx'; simp at hx'; simp [hx']
            exact this.symm
        · rw [if_neg hin]
          by_cases hir : i = r.ref
          · rw [if_pos hir, if_pos hir, hir]
          · rw [if_neg hir, if_neg hir]
      have ub : (s.unlink k.ref).heap k.ref = s.heap k.ref := by rw [u, if_neg hbr]
      have e1 : ∀ x : St, x.heap k.ref = s.heap k.ref → ((x.upd k.ref retire).heap k.ref).prv = r.ref := by
        intro x hx; simp [St.upd, hx, retire]; split <;> exact k3
      have e2 : ∀ x : St, x.heap k.ref = s.heap k.ref → ((x.upd k.ref retire).heap k.ref).nxt = (s.heap k.ref).nxt := by
        intro x hx; simp [St.upd, hx, retire]; split <;> rfl
      have hh : (((s.unlink k.ref).upd k.ref retire).unlink k.ref).heap = ((s.upd k.ref retire).unlink k.ref).heap := by
        funext i
        have g1 := e1 _ ub
        have g2 := e2 _ ub
        have g3 := e1 s rfl
        have g4 := e2 s rfl
        generalize hX : (s.unlink k.ref).upd k.ref retire = X at g1 g2 ⊢
        generalize hY : s.upd k.ref retire = Y at g3 g4 ⊢
        simp only [St.unlink, g1, g2, g3, g4]
        subst hX hY
        simp only [St.upd, u]
        by_cases hir : i = r.ref
        · subst hir; simp [Ne.symm hbr]
        · simp [hir]
      show (⟨_, _, _, _, _, _⟩ : St) = ⟨_, _, _, _, _, _⟩
      exact congrArg (fun x => (⟨x, s.size, s.pool, s.roots, s.ptrs, s.lifes⟩ : St)) hh
    unfold endBlk
    dsimp only
    rw [hheap]
    have : ((s.unlink k.ref).heap k.ref).val = (s.heap k.ref).val := (core_eq (unlink_core s k.ref k.ref)).2.2.2
    rw [this]
  have hgv : a.vals.getD p 0 = (s.heap k.ref).val := by
    rw [List.getD_eq_getElem?_getD, hk.2.2.2.1]; rfl
  refine ⟨?_, by rw [hval, hgv], hunl⟩
  have hs : (endBlk s k.ref).1.ptrs = s.ptrs ∧ (endBlk s k.ref).1.lifes = s.lifes ∧ (endBlk s k.ref).1.roots = s.roots :=
    ⟨heff.ptrs, heff.lifes, heff.roots⟩
  have hother := hlinks.1
  have hroot := hlinks.2
  generalize (endBlk s k.ref).1 = s' at hs hother hroot hself hI'
  obtain ⟨hs1, hs2, hs3⟩ := hs
  have hlive : ∀ q j, q ≠ p → LiveP s a q j → s'.heap j.ref = s.heap j.ref ∧ LiveP s' (a.remove p) q j := by
    intro q j hq hj
    have hne : j.ref ≠ k.ref := fun e => hq (LiveP.inj hI hj hk e)
    have hnr : j.ref ≠ r.ref := by intro e; have := (hj.api hI).1; rw [e, hra] at this; cases this
    have := hother _ hne hnr
    refine ⟨this, ?_⟩
    rw [LiveP, this, hs1]; exact hj
  refine ⟨⟨_, hI'⟩, by rw [hs1]; exact hS.lenV, by rw [hs1]; exact hS.lenP, by rw [hs2]; simpa [Abs.remove] using hS.lenL, ?_, ?_, ?_, ?_, ?_, ?_, ?_, ?_⟩
  · intro l' h' hl'
    rw [hs2] at hl'
    have := hS.root l' h' hl'
    by_cases e : h'.ref = r.ref
    · rw [e, hroot]; exact hra
    · rw [hother _ (by intro e'; rw [e'] at this; rw [hka.1] at this; cases this) e]; exact this
  · intro l' h' st' hl' ha'
    rw [hs2] at hl'
    obtain ⟨o', q1, q2⟩ := remove_lookup ha'
    cases o' with
    | none => cases q2
    | some st =>
      simp only [Option.map_some, Option.some.injEq] at q2
      subst q2
      obtain ⟨d1, d2, d3⟩ := hS.life l' h' st hl' q1
      by_cases e : l' = l
      · subst e
        rw [hr] at hl'; cases hl'
        rw [hl] at q1; cases q1
        have hf : (p :: t).filter (· ≠ p) = t := by
          simp only [ne_eq, decide_not, List.filter_cons, decide_true, Bool.not_true, Bool.false_eq_true, if_false]
          rw [List.filter_eq_self]
          intro x hx
          have : p ∉ t := (List.nodup_cons.mp hnd).1
          simp; rintro rfl; exact this hx
        rw [hf, hroot]
        refine ⟨d1, d2, ?_⟩
        have k4' : Chain s a r.ref k.ref t := k4
        cases t with
        | nil => rw [Chain] at k4' ⊢; rw [hroot]; exact k4'
        | cons q t =>
          obtain ⟨j, j1, j2, j3, j4⟩ := k4'
          have hqp : q ≠ p := by rintro rfl; simp at hnd
          obtain ⟨v1, v2⟩ := hlive q j hqp j1
          refine ⟨j, v2, by rw [hroot]; exact j2, by rw [v1]; exact j3, ?_⟩
          refine Chain.frame j4 (by rw [v1]) ?_
          intro x hx y hy
          have hxp : x ≠ p := by rintro rfl; simp [hx] at hnd
          obtain ⟨v1, v2⟩ := hlive x y hxp hy
          exact ⟨v2, by rw [v1], by rw [v1]⟩
      · have hpn : p ∉ st := fun hm => e (hS.disjoint l' l st (p :: t) p q1 hl hm (by simp))
        have hf : st.filter (· ≠ p) = st := by
          rw [List.filter_eq_self]
          intro x hx; simp; rintro rfl; exact hpn hx
        rw [hf]
        have hrr : h'.ref ≠ r.ref := fun e' => e (hS.distinct l' l h' r st (p :: t) hl' hr q1 hl e')
        have hrk : h'.ref ≠ k.ref := by intro e'; have := hS.root l' h' hl'; rw [e', hka.1] at this; cases this
        have hh := hother _ hrk hrr
        rw [hh]
        refine ⟨d1, d2, Chain.frame d3 (by rw [hh]) ?_⟩
        intro x hx y hy
        obtain ⟨v1, v2⟩ := hlive x y (by rintro rfl; exact hpn hx) hy
        exact ⟨v2, by rw [v1], by rw [v1]⟩
  · intro l' h' hl' ha'
    rw [hs2] at hl'
    obtain ⟨o', q1, q2⟩ := remove_lookup ha'
    cases o' with
    | some st => cases q2
    | none =>
      have := hS.gone l' h' hl' q1
      have hra' := hS.root l' h' hl'
      by_cases e : h'.ref = r.ref
      · rw [e, hroot]; rw [e] at this; exact this
      · rw [hother _ (by intro e'; rw [e', hka.1] at hra'; cases hra') e]; exact this
  · intro x hx
    rw [hs3] at hx
    have hx1 := hS.roots x hx
    have hx2 := (hI.base.roots x hx).1
    have hxr : x ≠ r.ref := by
      rintro rfl
      have := hI.base.rootLife _ hx r (List.mem_of_getElem? hr) rfl
      omega
    rw [hother _ (by rintro rfl; rw [hka.1] at hx2; cases hx2) hxr]; exact hx1
  · intro l1 l2 h1 h2 st1 st2 e1 e2 e3 e4 e5
    rw [hs2] at e1 e2
    obtain ⟨o1, q1, q2⟩ := remove_lookup e3
    obtain ⟨o2, q3, q4⟩ := remove_lookup e4
    cases o1 with
    | none => cases q2
    | some x =>
      cases o2 with
      | none => cases q4
      | some y => exact hS.distinct l1 l2 h1 h2 x y e1 e2 q1 q3 e5
  · intro l1 l2 st1 st2 q e1 e2 e3 e4
    obtain ⟨o1, q1, q2⟩ := remove_lookup e1
    obtain ⟨o2, q3, q4⟩ := remove_lookup e2
    cases o1 with
    | none => cases q2
    | some x =>
      cases o2 with
      | none => cases q4
      | some y =>
        simp only [Option.map_some, Option.some.injEq] at q2 q4
        subst q2 q4
        exact hS.disjoint l1 l2 x y q q1 q3 (List.mem_filter.mp e3).1 (List.mem_filter.mp e4).1
  · intro l1 st1 e1
    obtain ⟨o1, q1, q2⟩ := remove_lookup e1
    cases o1 with
    | none => cases q2
    | some x =>
      simp only [Option.map_some, Option.some.injEq] at q2
      subst q2
      exact (hS.nodup l1 x q1).filter _
  · intro q j hq hnl
    rw [hs1] at hq
    rw [remove_live] at hnl
    have hm := hI.fin _ hk.2.1
    have hrevk : (s'.heap k.ref).rev % 2 ^ 62 = (s.heap k.ref).rev % 2 ^ 62 + 1 := by
      rw [hself.1, if_pos hm.2]
      have := hm.1
      unfold maxRevision at this; omega
    by_cases hjk : j.ref = k.ref
    · rw [hjk, hrevk]
      rcases hI.ptrs j (List.mem_of_getElem? hq) with x | x
      · rw [hjk] at x; omega
      · rw [hjk] at x; omega
    · have hjr : j.ref ≠ r.ref := by
        intro e
        have := (hI.base.ptrs j (List.mem_of_getElem? hq)).2
        rw [e, hra] at this; cases this
      rw [hother _ hjk hjr]
      apply hS.dead q j hq
      intro hlv
      apply hnl
      refine ⟨hlv, ?_⟩
      rintro rfl
      rw [hp] at hq; cases hq; exact hjk rfl

end Verif.Mmm
