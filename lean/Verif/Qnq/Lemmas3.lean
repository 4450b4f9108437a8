import Verif.Qnq.Lemmas2

/-! Order of registrations, reachability, and progress of a thread running alone. -/
namespace Verif.Qnq

/-- Threads from `T` on hold nodes from `L` on. -/
def After (T L : Nat) (s : St) : Prop :=
  L ≤ s.nodes.length - 1 ∧ ∀ (t n : Nat) th, T ≤ t → s.threads[t]? = some th → holds th = some n → L ≤ n

theorem after_step {s : St} (hI : Inv s) {T L : Nat} (h : After T L s) (a : Act) : After T L (step s a) := by
  obtain ⟨hl, h⟩ := h
  have hlen := (hI.step a).2.len
  refine ⟨by omega, ?_⟩
  intro k n th hk hth hn
  have app : ∀ x : Thread, holds x = none → (s.threads ++ [x])[k]? = some th → L ≤ n := by
    intro x hx h1
    rcases Nat.lt_or_ge k s.threads.length with hlt | hge
    · rw [List.getElem?_append_left hlt] at h1; exact h k n th hk h1 hn
    · rw [List.getElem?_append_right hge] at h1
      have : th = x := by
        rcases Nat.eq_zero_or_pos (k - s.threads.length) with h0 | h0
        · rw [h0] at h1; simpa using h1.symm
        · rw [List.getElem?_eq_none (by simp; omega)] at h1; cases h1
      subst this; rw [hx] at hn; cases hn
  cases a with
  | cancel c => rw [Verif.Qnq.step] at hth; split at hth <;> exact h k n th hk hth hn
  | register c => exact app _ (by split <;> rfl) hth
  | send => exact app _ rfl hth
  | run t ok =>
    by_cases ht : t = k
    · subst ht
      cases hs : s.threads[t]? with
      | none => rw [Verif.Qnq.step, hs] at hth; exact h t n th hk hth hn
      | some x =>
        cases x with
        | send sent pc =>
          have : step s (.run t ok) = stepSend s t sent ok pc := by rw [Verif.Qnq.step, hs]
          rw [this] at hth
          have key : ∃ b pc', (stepSend s t sent ok pc).threads[t]? = some (.send b pc') := by
            have g : ∀ {s' : St}, s'.threads = s.threads → ∀ x, (s'.goto t x).threads[t]? = some x := by
              intro s' hs' x; rw [goto_get (s := s') (by rw [hs']; exact hs)]; simp
            unfold stepSend
            repeat' split
            all_goals first
              | exact ⟨_, _, g (by rfl) _⟩
              | exact ⟨_, _, hs⟩
              | exact ⟨_, _, g (s' := s.store _ _) (by rfl) _⟩
          obtain ⟨b, pc', e⟩ := key
          rw [e] at hth; cases hth; cases hn
        | reg c pc =>
          have hst : step s (.run t ok) = stepReg s t c pc := by rw [Verif.Qnq.step, hs]
          rw [hst] at hth
          have g : ∀ {s' : St}, s'.threads = s.threads → ∀ x, (s'.goto t x).threads[t]? = some x := by
            intro s' hs' x; rw [goto_get (s := s') (by rw [hs']; exact hs)]; simp
          have old : ∀ m, holds (.reg c pc) = some m → L ≤ m := fun m hm => h t m _ hk hs hm
          have hloc := hI.loc _ _ hs
          have fresh : ∀ m, m < s.nodes.length → nextOf s m = none → L ≤ m := by
            intro m hm hnn
            have := (hI.last m hm).mp hnn
            omega
          unfold stepReg at hth
          cases pc with
          | tryHead =>
            dsimp only at hth; split at hth
            · rename_i hnn
              rw [g (by rfl)] at hth; cases hth; cases hn; exact fresh 0 hI.pos hnn
            · rw [g (by rfl)] at hth; cases hth; cases hn
          | walk m => dsimp only at hth; split at hth <;> (rw [g (by rfl)] at hth; cases hth; cases hn)
          | cas m =>
            dsimp only at hth; split at hth
            · rename_i hnn
              rw [g (by rfl)] at hth; cases hth; cases hn; exact fresh _ hloc hnn
            · rw [g (by rfl)] at hth; cases hth; cases hn
          | chkRead m nx => dsimp only at hth; split at hth <;> (rw [g (by rfl)] at hth; cases hth; cases hn)
          | chkCtx m nx =>
            dsimp only at hth; split at hth
            · split at hth <;> (rw [g (by rfl)] at hth; cases hth; cases hn)
            · rw [g (by rfl)] at hth; cases hth; cases hn
          | chkNext m nx => dsimp only at hth; split at hth <;> (rw [g (by rfl)] at hth; cases hth; cases hn)
          | del m nx nn => dsimp only at hth; split at hth <;> (rw [g (by rfl)] at hth; cases hth; cases hn)
          | setCtx m => dsimp only at hth; rw [g (by rfl)] at hth; cases hth; cases hn; exact old _ rfl
          | setHandler m => dsimp only at hth; rw [g (by rfl)] at hth; cases hth; cases hn; exact old _ rfl
          | setRead m => dsimp only at hth; rw [g (by rfl)] at hth; cases hth; cases hn; exact old _ rfl
          | done m => dsimp only at hth; exact h t n th hk hth hn
    · have : (step s (.run t ok)).threads[k]? = s.threads[k]? := by
        rw [Verif.Qnq.step]
        split
        · rw [stepReg_other _ _ _ _ _ ht]
        · rw [stepSend_other _ _ _ _ _ _ ht]
        · rfl
      rw [this] at hth
      exact h k n th hk hth hn

theorem after_run {s : St} (hI : Inv s) {T L : Nat} (h : After T L s) (as : List Act) : After T L (run s as) := by
  induction as generalizing s with
  | nil => exact h
  | cons a as ih => exact ih (hI.step a).1 (after_step hI h a)

/-- Every node that is not gone can be reached from the head. -/
theorem Inv.reach {s : St} (h : Inv s) {i : Nat} (hi : i < s.nodes.length) (hg : ¬ Gone s i) : Reach s i := by
  have key : ∀ d m, m + d = i → Reach s m → Reach s i := by
    intro d
    induction d using Nat.strongRecOn with
    | _ d ih =>
      intro m hm hr
      by_cases hd : d = 0
      · subst hd; rw [show i = m by omega]; exact hr
      · cases hn : nextOf s m with
        | none => have := (h.last m (by omega)).mp hn; omega
        | some j =>
          have hsk := h.next m j hn
          rcases Nat.lt_or_ge i j with hij | hij
          · exact absurd (hsk.2.2 i (by omega) hij) hg
          · exact ih (i - j) (by have := hsk.1; omega) j (by omega) (.next m j hr hn)
  exact key i 0 (by omega) .head

/-! ### Running alone -/

/-- Steps a send running alone still needs. -/
def sendLeft (s : St) : SPc → Nat
  | .enter none => 1
  | .enter (some n) => (s.nodes.length - n) * 7 + 2
  | .chkRead n none => (s.nodes.length - n) * 7 + 1
  | .chkRead n (some _) => (s.nodes.length - n) * 7 + 1
  | .call n _ => (s.nodes.length - n) * 7
  | .nRead _ nx => (s.nodes.length - nx) * 7 + 6
  | .nCtx _ nx => (s.nodes.length - nx) * 7 + 5
  | .nNext _ nx => (s.nodes.length - nx) * 7 + 4
  | .del _ nx _ => (s.nodes.length - nx) * 7 + 3
  | .done _ => 0
  | .crashed => 0

theorem send_alone : ∀ (d : Nat) {s : St}, Inv s → ∀ {t : Nat} {sent : Bool} {pc : SPc}, s.threads[t]? = some (.send sent pc) → sendLeft s pc ≤ d →
    ∃ k res, Returned (run s (List.replicate k (.run t true))) t res := by
  intro d
  induction d with
  | zero =>
    intro s hI t sent pc ht hd
    have hloc := hI.loc _ _ ht
    cases pc with
    | done r => exact ⟨0, r, sent, ht⟩
    | crashed => exact absurd hloc (by simp [Local])
    | enter n => cases n <;> simp [sendLeft] at hd
    | chkRead n nx => cases nx <;> simp [sendLeft] at hd
    | call n nx => have := hloc.1; simp only [sendLeft] at hd; omega
    | nRead n nx => simp [sendLeft] at hd
    | nCtx n nx => simp [sendLeft] at hd
    | nNext n nx => simp [sendLeft] at hd
    | del n nx nn => simp [sendLeft] at hd
  | succ d ih =>
    intro s hI t sent pc ht hd
    have hloc := hI.loc _ _ ht
    have hs : step s (.run t true) = stepSend s t sent true pc := by rw [step, ht]
    have hI' := (hI.step (.run t true)).1
    have g : ∀ {s' : St}, s'.threads = s.threads → ∀ x, (s'.goto t x).threads[t]? = some x := by
      intro s' hs' x; rw [goto_get (s := s') (by rw [hs']; exact ht)]; simp
    have go : ∀ {sent' pc'}, (step s (.run t true)).threads[t]? = some (.send sent' pc') → sendLeft (step s (.run t true)) pc' ≤ d →
        ∃ k res, Returned (run s (List.replicate k (.run t true))) t res := by
      intro sent' pc' h1 h2
      obtain ⟨k, res, hk⟩ := ih hI' h1 h2
      exact ⟨k + 1, res, by rw [List.replicate_succ]; exact hk⟩
    have hln : (step s (.run t true)).nodes.length = s.nodes.length := by
      rw [hs]; unfold stepSend
      repeat' split
      all_goals first | rfl | exact store_len s _ _
    cases pc with
    | done r => exact ⟨0, r, sent, ht⟩
    | crashed => exact absurd hloc (by simp [Local])
    | enter n =>
      cases n with
      | none =>
        refine go (pc' := .done (if sent then .nil else .empty)) (sent' := sent) ?_ (by simp [sendLeft])
        rw [hs, stepSend]; exact g rfl _
      | some n =>
        refine go (pc' := .chkRead n (nextOf s n)) (sent' := sent) ?_ ?_
        · rw [hs, stepSend]; exact g rfl _
        · simp only [sendLeft] at hd
          cases nextOf s n <;> (simp only [sendLeft, hln]; omega)
    | chkRead n nx =>
      by_cases hr : readOf s n = true
      · refine go (pc' := .call n nx) (sent' := sent) (by rw [hs, stepSend, if_pos hr]; exact g rfl _) ?_
        cases nx <;> (simp only [sendLeft, hln] at hd ⊢; omega)
      · refine go (pc' := .enter nx) (sent' := sent) (by rw [hs, stepSend, if_neg hr]; exact g rfl _) ?_
        have h1 := hloc.1
        cases nx with
        | none => simp only [sendLeft] at hd ⊢; omega
        | some nx =>
          have := (hloc.2 nx rfl).1
          simp only [sendLeft, hln] at hd ⊢; omega
    | call n nx =>
      obtain ⟨h1, h2, h3⟩ := hloc
      obtain ⟨r, c, hrt, _, hr⟩ := hI.published h3
      refine go (pc' := afterCall n nx) (sent' := true) (by rw [hs, stepSend, hr]; exact g rfl _) ?_
      cases nx with
      | none => simp only [sendLeft, afterCall] at hd ⊢; omega
      | some nx =>
        have := (h2 nx rfl).1
        have := (h2 nx rfl).2.1
        simp only [sendLeft, hln, afterCall] at hd ⊢; omega
    | nRead n nx =>
      by_cases hr : readOf s nx = true
      · exact go (pc' := .nCtx n nx) (sent' := sent) (by rw [hs, stepSend, if_pos hr]; exact g rfl _) (by simp only [sendLeft, hln] at hd ⊢; omega)
      · exact go (pc' := .enter (some nx)) (sent' := sent) (by rw [hs, stepSend, if_neg hr]; exact g rfl _) (by simp only [sendLeft, hln] at hd ⊢; omega)
    | nCtx n nx =>
      obtain ⟨_, x, _, hx, _⟩ := hI.published hloc.2
      by_cases hr : x ∈ s.cancelled
      · exact go (pc' := .nNext n nx) (sent' := sent) (by rw [hs, stepSend, hx]; dsimp only; rw [if_pos hr]; exact g rfl _) (by simp only [sendLeft, hln] at hd ⊢; omega)
      · exact go (pc' := .enter (some nx)) (sent' := sent) (by rw [hs, stepSend, hx]; dsimp only; rw [if_neg hr]; exact g rfl _) (by simp only [sendLeft, hln] at hd ⊢; omega)
    | nNext n nx =>
      cases hn : nextOf s nx with
      | none => exact go (pc' := .enter (some nx)) (sent' := sent) (by rw [hs, stepSend, hn]; exact g rfl _) (by simp only [sendLeft, hln] at hd ⊢; omega)
      | some nn => exact go (pc' := .del n nx nn) (sent' := sent) (by rw [hs, stepSend, hn]; exact g rfl _) (by simp only [sendLeft, hln] at hd ⊢; omega)
    | del n nx nn =>
      by_cases hn : nextOf s n = some nx
      · have := hloc.2.2.1
        refine go (pc' := .enter (some nn)) (sent' := sent) (by rw [hs, stepSend, if_pos hn]; exact g (s' := s.store n _) rfl _) ?_
        simp only [sendLeft, hln] at hd ⊢; omega
      · exact go (pc' := .enter (some nx)) (sent' := sent) (by rw [hs, stepSend, if_neg hn]; exact g rfl _) (by simp only [sendLeft, hln] at hd ⊢; omega)

/-- Steps a registration running alone still needs. -/
def regLeft (s : St) : RPc → Nat
  | .tryHead => s.nodes.length * 6 + 20
  | .walk n => (s.nodes.length - n) * 6 + 10
  | .cas _ => 4
  | .chkRead _ nx => (s.nodes.length - nx) * 6 + 15
  | .chkCtx _ nx => (s.nodes.length - nx) * 6 + 14
  | .chkNext _ nx => (s.nodes.length - nx) * 6 + 13
  | .del _ nx _ => (s.nodes.length - nx) * 6 + 12
  | .setCtx _ => 3
  | .setHandler _ => 2
  | .setRead _ => 1
  | .done _ => 0

/-- A registration about to try the compare-and-swap on the end of the list. -/
def AtEnd (s : St) : RPc → Prop
  | .cas n => nextOf s n = none
  | _ => True

theorem reg_alone : ∀ (d : Nat) {s : St}, Inv s → ∀ {t c : Nat} {pc : RPc}, s.threads[t]? = some (.reg c pc) → AtEnd s pc → regLeft s pc ≤ d →
    ∃ k, Listening (run s (List.replicate k (.run t true))) t c := by
  intro d
  induction d with
  | zero =>
    intro s hI t c pc ht _ hd
    cases pc with
    | done n => exact ⟨0, n, ht⟩
    | _ => simp [regLeft] at hd
  | succ d ih =>
    intro s hI t c pc ht hat hd
    have hloc := hI.loc _ _ ht
    have hs : step s (.run t true) = stepReg s t c pc := by rw [step, ht]
    have hI' := (hI.step (.run t true)).1
    have g : ∀ {s' : St}, s'.threads = s.threads → ∀ x, (s'.goto t x).threads[t]? = some x := by
      intro s' hs' x; rw [goto_get (s := s') (by rw [hs']; exact ht)]; simp
    have go : ∀ (pc' : RPc) (s' : St), s'.threads = s.threads → stepReg s t c pc = s'.goto t (.reg c pc') → AtEnd (s'.goto t (.reg c pc')) pc' →
        regLeft (s'.goto t (.reg c pc')) pc' ≤ d → ∃ k, Listening (run s (List.replicate k (.run t true))) t c := by
      intro pc' s' hth h0 h2 h3
      have h0 : step s (.run t true) = s'.goto t (.reg c pc') := by rw [hs, h0]
      rw [h0] at hI'
      obtain ⟨k, hk⟩ := ih hI' (g hth _) h2 h3
      exact ⟨k + 1, by rw [List.replicate_succ]; show Listening (run (step s _) _) t c; rw [h0]; exact hk⟩
    cases pc with
    | done n => exact ⟨0, n, ht⟩
    | tryHead =>
      by_cases hn : nextOf s 0 = none
      · exact go (.setCtx 0) (s.attach 0) rfl (by rw [stepReg, if_pos hn]) trivial (by simp only [regLeft] at hd ⊢; omega)
      · exact go (.walk 0) s rfl (by rw [stepReg, if_neg hn]) trivial (by simp only [regLeft, goto_nodes] at hd ⊢; omega)
    | walk n =>
      cases hn : nextOf s n with
      | none => exact go (.cas n) s rfl (by rw [stepReg, hn]) hn (by simp only [regLeft] at hd ⊢; omega)
      | some nx =>
        have hsk := hI.next n nx hn
        have := hsk.1
        have := hsk.2.1
        exact go (.chkRead n nx) s rfl (by rw [stepReg, hn]) trivial (by simp only [regLeft, goto_nodes] at hd ⊢; omega)
    | cas n => exact go (.setCtx n) (s.attach n) rfl (by rw [stepReg, if_pos (show nextOf s n = none from hat)]) trivial (by simp only [regLeft] at hd ⊢; omega)
    | chkRead n nx =>
      by_cases hr : readOf s nx = true
      · exact go (.chkCtx n nx) s rfl (by rw [stepReg, if_pos hr]) trivial (by simp only [regLeft, goto_nodes] at hd ⊢; omega)
      · exact go (.walk nx) s rfl (by rw [stepReg, if_neg hr]) trivial (by simp only [regLeft, goto_nodes] at hd ⊢; omega)
    | chkCtx n nx =>
      obtain ⟨_, x, _, hx, _⟩ := hI.published hloc.2
      by_cases hr : x ∈ s.cancelled
      · exact go (.chkNext n nx) s rfl (by rw [stepReg, hx]; dsimp only; rw [if_pos hr]) trivial (by simp only [regLeft, goto_nodes] at hd ⊢; omega)
      · exact go (.walk nx) s rfl (by rw [stepReg, hx]; dsimp only; rw [if_neg hr]) trivial (by simp only [regLeft, goto_nodes] at hd ⊢; omega)
    | chkNext n nx =>
      cases hn : nextOf s nx with
      | none => exact go (.walk nx) s rfl (by rw [stepReg, hn]) trivial (by simp only [regLeft, goto_nodes] at hd ⊢; omega)
      | some nn => exact go (.del n nx nn) s rfl (by rw [stepReg, hn]) trivial (by simp only [regLeft, goto_nodes] at hd ⊢; omega)
    | del n nx nn =>
      by_cases hn : nextOf s n = some nx
      · have := hloc.2.2.1
        exact go (.walk nn) (s.store n _) rfl (by rw [stepReg, if_pos hn]) trivial (by simp only [regLeft, goto_nodes, store_len] at hd ⊢; omega)
      · exact go (.walk nx) s rfl (by rw [stepReg, if_neg hn]) trivial (by simp only [regLeft, goto_nodes] at hd ⊢; omega)
    | setCtx n => exact go (.setHandler n) (s.store n _) rfl (by rw [stepReg]) trivial (by simp only [regLeft] at hd ⊢; omega)
    | setHandler n => exact go (.setRead n) (s.store n _) rfl (by rw [stepReg]) trivial (by simp only [regLeft] at hd ⊢; omega)
    | setRead n => exact go (.done n) (s.store n _) rfl (by rw [stepReg]) trivial (by simp only [regLeft] at hd ⊢; omega)

/-- Whatever the registration was doing, it reaches a point where the compare-and-swap is not stale. -/
theorem reg_alone' {s : St} (hI : Inv s) {t c : Nat} {pc : RPc} (ht : s.threads[t]? = some (.reg c pc)) :
    ∃ k, Listening (run s (List.replicate k (.run t true))) t c := by
  by_cases hat : AtEnd s pc
  · exact reg_alone _ hI ht hat (Nat.le_refl _)
  · cases pc with
    | cas n =>
      have hn : nextOf s n ≠ none := hat
      have hs : step s (.run t true) = s.goto t (.reg c (.walk n)) := by rw [step, ht]; dsimp only; rw [stepReg, if_neg hn]
      have hI' := (hI.step (.run t true)).1
      rw [hs] at hI'
      obtain ⟨k, hk⟩ := reg_alone _ hI' (t := t) (c := c) (pc := .walk n) (by rw [goto_get ht, if_pos rfl]) trivial (Nat.le_refl _)
      exact ⟨k + 1, by rw [List.replicate_succ]; show Listening (run (step s _) _) t c; rw [hs]; exact hk⟩
    | _ => exact absurd trivial hat

end Verif.Qnq
