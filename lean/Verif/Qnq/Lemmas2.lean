import Verif.Qnq.Lemmas

/-! Following one send through a run, and counting its calls. -/
namespace Verif.Qnq

theorem threads_lt {s : St} {t : Nat} {th : Thread} (h : s.threads[t]? = some th) : t < s.threads.length := by
  rcases Nat.lt_or_ge t s.threads.length with hi | hi
  · exact hi
  · rw [List.getElem?_eq_none hi] at h; cases h

theorem goto_other {s : St} {t k : Nat} {th : Thread} (h : t ≠ k) : (s.goto t th).threads[k]? = s.threads[k]? := by
  show (s.threads.set t th)[k]? = _
  rw [List.getElem?_set_ne h]

/-- The threads a step of another thread leaves alone, and the log it writes. -/
theorem stepReg_other (s : St) (t c : Nat) (pc : RPc) (k : Nat) (h : t ≠ k) : (stepReg s t c pc).threads[k]? = s.threads[k]? := by
  unfold stepReg
  repeat' split
  all_goals first
    | rfl
    | exact goto_other h
    | exact goto_other (s := s.attach _) h
    | exact goto_other (s := s.store _ _) h

theorem stepReg_log (s : St) (t c : Nat) (pc : RPc) : (stepReg s t c pc).log = s.log := by
  unfold stepReg
  repeat' split
  all_goals rfl

theorem stepReg_threads (s : St) (t c : Nat) (pc : RPc) : (stepReg s t c pc).threads.length = s.threads.length := by
  unfold stepReg
  repeat' split
  all_goals first | rfl | simp [St.goto, St.attach, St.store]

theorem stepSend_other (s : St) (t : Nat) (sent ok : Bool) (pc : SPc) (k : Nat) (h : t ≠ k) :
    (stepSend s t sent ok pc).threads[k]? = s.threads[k]? := by
  unfold stepSend
  repeat' split
  all_goals first
    | rfl
    | exact goto_other h
    | exact goto_other (s := s.store _ _) h

theorem stepSend_log (s : St) (t : Nat) (sent ok : Bool) (pc : SPc) :
    (stepSend s t sent ok pc).log = s.log ∨ ∃ r n nx, pc = .call n nx ∧ handlerOf s n = some r ∧ (stepSend s t sent ok pc).log = ⟨t, r, ok⟩ :: s.log := by
  unfold stepSend
  split
  case h_4 n nx =>
    split
    · left; rfl
    · rename_i r hr
      right
      refine ⟨r, n, nx, rfl, hr, ?_⟩
      cases ok <;> rfl
  all_goals
    left
    repeat' split
    all_goals rfl

theorem stepSend_threads (s : St) (t : Nat) (sent ok : Bool) (pc : SPc) : (stepSend s t sent ok pc).threads.length = s.threads.length := by
  unfold stepSend
  repeat' split
  all_goals first | rfl | simp [St.goto, St.store]

theorem calls_cons (s : St) (l : List Call) (e : Call) (t : Nat) (h : s.log = e :: l) :
    calls s t = if e.t = t then e :: l.filter (fun e => e.t = t) else l.filter (fun e => e.t = t) := by
  unfold calls
  rw [h, List.filter_cons]
  by_cases he : e.t = t <;> simp [he]

/-- A registration that has returned stays as it is. -/
theorem done_step {s : St} {r c n : Nat} (h : s.threads[r]? = some (.reg c (.done n))) (a : Act) :
    (step s a).threads[r]? = some (.reg c (.done n)) := by
  have app : ∀ th, (s.threads ++ [th])[r]? = some (Thread.reg c (.done n)) := by
    intro th; rw [List.getElem?_append_left (threads_lt h)]; exact h
  cases a with
  | cancel x => rw [step]; split <;> exact h
  | register x => exact app _
  | send => exact app _
  | run t ok =>
    rw [step]
    by_cases ht : t = r
    · subst ht; rw [h]; exact h
    · split
      · rw [stepReg_other _ _ _ _ _ ht]; exact h
      · rw [stepSend_other _ _ _ _ _ _ ht]; exact h
      · exact h

theorem done_run {s : St} {r c n : Nat} (h : s.threads[r]? = some (.reg c (.done n))) (as : List Act) :
    (run s as).threads[r]? = some (.reg c (.done n)) := by
  induction as generalizing s with
  | nil => exact h
  | cons a as ih => exact ih (done_step h a)

/-! ### One send on its way to one listener -/

/-- The send has not passed node `i` yet, or has failed. -/
def Ahead (i : Nat) : Option Thread → Prop
  | some (.send _ (.enter (some n))) => n ≤ i
  | some (.send _ (.chkRead n nx)) => n ≤ i ∧ (n < i → ∃ j, nx = some j ∧ j ≤ i)
  | some (.send _ (.call n nx)) => n ≤ i ∧ (n < i → ∃ j, nx = some j ∧ j ≤ i)
  | some (.send _ (.nRead _ nx)) => nx ≤ i
  | some (.send _ (.nCtx _ nx)) => nx ≤ i
  | some (.send _ (.nNext _ nx)) => nx ≤ i
  | some (.send _ (.del _ nx nn)) => nx ≤ i ∧ nn ≤ i
  | some (.send _ (.done .err)) => True
  | _ => False

theorem ahead_step {s : St} (h : Inv s) {t r c i : Nat} (hr : s.threads[r]? = some (.reg c (.done i)))
    (ha : c ∈ s.cancelled ∨ ⟨t, r, true⟩ ∈ s.log ∨ Ahead i s.threads[t]?) (a : Act) :
    c ∈ (step s a).cancelled ∨ ⟨t, r, true⟩ ∈ (step s a).log ∨ Ahead i (step s a).threads[t]? := by
  by_cases hc : c ∈ s.cancelled
  · exact .inl ((h.step a).2.canc c hc)
  rcases ha with ha | ha | ha
  · exact absurd ha hc
  · right; left
    cases a with
    | cancel x => rw [step]; split <;> exact ha
    | register x => exact ha
    | send => exact ha
    | run k ok =>
      rw [step]
      split
      · rw [stepReg_log]; exact ha
      · rename_i sent pc _
        rcases stepSend_log s k sent ok pc with e | ⟨_, _, _, _, _, e⟩
        · rw [e]; exact ha
        · rw [e]; exact List.mem_cons_of_mem _ ha
      · exact ha
  · obtain ⟨hp1, hp2, hp3⟩ := h.phase _ _ hr
    have hilt := h.lt _ _ _ hr rfl
    have notgone : ¬ Gone s i := by
      rintro ⟨_, x, hx, hx'⟩
      rw [hp2] at hx; cases hx; exact hc hx'
    have skipTo : ∀ {a b}, Skip s a b → a < i → b ≤ i := by
      intro a b hs hlt
      rcases Nat.lt_or_ge i b with h1 | h1
      · exact absurd (hs.2.2 i hlt h1) notgone
      · exact h1
    cases hth : s.threads[t]? with
    | none => rw [hth] at ha; exact absurd ha (by simp [Ahead])
    | some th =>
      rw [hth] at ha
      have app : ∀ x, (s.threads ++ [x])[t]? = some th := by
        intro x; rw [List.getElem?_append_left (threads_lt hth)]; exact hth
      cases a with
      | cancel x => rw [step]; right; right; split <;> (show Ahead i s.threads[t]?; rw [hth]; exact ha)
      | register x => right; right; show Ahead i (s.threads ++ [_])[t]?; rw [app]; exact ha
      | send => right; right; show Ahead i (s.threads ++ [_])[t]?; rw [app]; exact ha
      | run k ok =>
        rw [step]
        by_cases hk : k = t
        · subst hk
          cases th with
          | reg => exact absurd ha (by simp [Ahead])
          | send sent pc =>
            rw [hth]
            dsimp only
            have hloc := h.loc _ _ hth
            have gg : ∀ x, (s.goto k x).threads[k]? = some x := by
              intro x; rw [goto_get hth]; simp
            cases pc with
            | enter n =>
              cases n with
              | none => exact absurd ha (by simp [Ahead])
              | some n =>
                rw [stepSend]
                right; right
                rw [gg]
                refine ⟨ha, ?_⟩
                intro hlt
                cases hn : nextOf s n with
                | none =>
                  have := (h.last n hloc).mp hn
                  omega
                | some j => exact ⟨j, rfl, skipTo (h.next n j hn) hlt⟩
            | chkRead n nx =>
              rw [stepSend]
              right; right
              split
              · rw [gg]; exact ha
              · rename_i hnr
                rw [gg]
                have hne : n ≠ i := by rintro rfl; exact hnr hp1
                obtain ⟨j, rfl, hj⟩ := ha.2 (by have := ha.1; omega)
                exact hj
            | call n nx =>
              rw [stepSend]
              obtain ⟨h1, h2, h3⟩ := hloc
              obtain ⟨r', _, _, _, hr'⟩ := h.published h3
              rw [hr']
              dsimp only
              by_cases hni : n = i
              · subst hni
                rw [hp3] at hr'; cases hr'
                cases ok
                · right; right; show Ahead n (s.goto k _).threads[k]?; rw [gg]; trivial
                · right; left; exact List.mem_cons_self
              · right; right
                cases ok
                · show Ahead i (s.goto k _).threads[k]?; rw [gg]; trivial
                · show Ahead i (s.goto k _).threads[k]?
                  rw [gg]
                  obtain ⟨j, rfl, hj⟩ := ha.2 (by have := ha.1; omega)
                  exact hj
            | nRead n nx =>
              rw [stepSend]
              right; right
              split <;> (rw [gg]; exact ha)
            | nCtx n nx =>
              rw [stepSend]
              obtain ⟨h1, h2⟩ := hloc
              obtain ⟨_, x, _, hx, _⟩ := h.published h2
              rw [hx]
              dsimp only
              right; right
              split <;> (rw [gg]; exact ha)
            | nNext n nx =>
              rw [stepSend]
              right; right
              split
              · rename_i nn hn
                rw [gg]
                refine ⟨ha, ?_⟩
                have hne : nx ≠ i := by rintro rfl; exact notgone hloc.2
                have ha' : nx ≤ i := ha
                exact skipTo (h.next nx nn hn) (by omega)
              · rw [gg]; exact ha
            | del n nx nn =>
              rw [stepSend]
              right; right
              split
              · show Ahead i ((s.store n _).goto k _).threads[k]?
                rw [goto_get (s := s.store n _) hth, if_pos rfl]
                exact ha.2
              · rw [gg]; exact ha.1
            | done res => right; right; rw [stepSend, hth]; exact ha
            | crashed => exact absurd ha (by simp [Ahead])
        · right; right
          split
          · rw [stepReg_other _ _ _ _ _ hk, hth]; exact ha
          · rw [stepSend_other _ _ _ _ _ _ hk, hth]; exact ha
          · rw [hth]; exact ha

theorem ahead_run {s : St} (h : Inv s) {t r c i : Nat} (hr : s.threads[r]? = some (.reg c (.done i)))
    (ha : c ∈ s.cancelled ∨ ⟨t, r, true⟩ ∈ s.log ∨ Ahead i s.threads[t]?) (as : List Act) :
    c ∈ (run s as).cancelled ∨ ⟨t, r, true⟩ ∈ (run s as).log ∨ Ahead i (run s as).threads[t]? := by
  induction as generalizing s with
  | nil => exact ha
  | cons a as ih => exact ih (h.step a).1 (done_step hr a) (ahead_step h hr ha a)

/-! ### Counting the calls of a send -/

/-- What a send has called so far. -/
def Acct (cs : List Call) : Option Thread → Prop
  | none => cs = []
  | some (.reg _ _) => cs = []
  | some (.send _ (.done .nil)) => cs ≠ [] ∧ ∀ e ∈ cs, e.ok = true
  | some (.send _ (.done .empty)) => cs = []
  | some (.send _ (.done .err)) => ∃ e t, cs = e :: t ∧ e.ok = false ∧ ∀ e ∈ t, e.ok = true
  | some (.send _ .crashed) => False
  | some (.send sent _) => (∀ e ∈ cs, e.ok = true) ∧ (sent = true ↔ cs ≠ [])

/-- The nodes of the listeners a send has called are behind it. -/
def Behind (n : Nat) : Option Thread → Prop
  | some (.send _ (.enter (some m))) => n < m
  | some (.send _ (.chkRead m _)) => n < m
  | some (.send _ (.call m _)) => n < m
  | some (.send _ (.nRead m nx)) => n ≤ m ∧ m < nx
  | some (.send _ (.nCtx m nx)) => n ≤ m ∧ m < nx
  | some (.send _ (.nNext m nx)) => n ≤ m ∧ m < nx
  | some (.send _ (.del m nx nn)) => n ≤ m ∧ m < nx ∧ nx < nn
  | _ => True

/-- Later calls are to listeners further down the list. -/
def Later (s : St) (e e' : Call) : Prop :=
  ∃ n n' c c', s.threads[e.r]? = some (.reg c (.done n)) ∧ s.threads[e'.r]? = some (.reg c' (.done n')) ∧ n' < n

/-- The invariant of the log. -/
structure LogInv (s : St) : Prop where
  acct : ∀ t : Nat, Acct (calls s t) s.threads[t]?
  behind : ∀ (t : Nat), ∀ e ∈ calls s t, ∃ n c, s.threads[e.r]? = some (.reg c (.done n)) ∧ Behind n s.threads[t]?
  order : ∀ t : Nat, (calls s t).Pairwise (Later s)

theorem Later.step {s : St} {e e'} (h : Later s e e') (a : Act) : Later (step s a) e e' := by
  obtain ⟨n, n', c, c', h1, h2, h3⟩ := h
  exact ⟨n, n', c, c', done_step h1 a, done_step h2 a, h3⟩

/-- One thread moved and nothing was called. -/
theorem LogInv.quiet {s : St} (h : LogInv s) (a : Act) (hlog : (step s a).log = s.log)
    (hacct : ∀ t : Nat, Acct (calls s t) s.threads[t]? → Acct (calls s t) (step s a).threads[t]?)
    (hbeh : ∀ (t n : Nat), Behind n s.threads[t]? → Behind n (step s a).threads[t]?) : LogInv (step s a) := by
  have hc : ∀ t, calls (step s a) t = calls s t := by intro t; unfold calls; rw [hlog]
  refine ⟨?_, ?_, ?_⟩
  · intro t; rw [hc]; exact hacct t (h.acct t)
  · intro t e he
    rw [hc] at he
    obtain ⟨n, c, h1, h2⟩ := h.behind t e he
    exact ⟨n, c, done_step h1 a, hbeh t n h2⟩
  · intro t; rw [hc]; exact (h.order t).imp fun hl => hl.step a

theorem LogInv.moved {s : St} (h : LogInv s) (a : Act) (k : Nat) (th' : Thread) (hlog : (step s a).log = s.log)
    (hk : (step s a).threads[k]? = some th') (ho : ∀ t : Nat, k ≠ t → (step s a).threads[t]? = s.threads[t]?)
    (hacct : ∀ cs, Acct cs s.threads[k]? → Acct cs (some th'))
    (hbeh : ∀ n : Nat, Behind n s.threads[k]? → Behind n (some th')) : LogInv (step s a) := by
  refine h.quiet a hlog ?_ ?_
  · intro t ht
    by_cases e : k = t
    · subst e; rw [hk]; exact hacct _ ht
    · rw [ho t e]; exact ht
  · intro t n ht
    by_cases e : k = t
    · subst e; rw [hk]; exact hbeh n ht
    · rw [ho t e]; exact ht

theorem LogInv.same {s : St} (h : LogInv s) (a : Act) (hlog : (step s a).log = s.log) (hthr : (step s a).threads = s.threads) : LogInv (step s a) :=
  h.quiet a hlog (fun t ht => by rw [hthr]; exact ht) (fun t n ht => by rw [hthr]; exact ht)

theorem LogInv.spawn {s : St} (h : LogInv s) (a : Act) (th : Thread) (hlog : (step s a).log = s.log) (hthr : (step s a).threads = s.threads ++ [th])
    (hacct : Acct [] (some th)) : LogInv (step s a) := by
  have hempty : calls s s.threads.length = [] := by
    have := h.acct s.threads.length
    rw [List.getElem?_eq_none (Nat.le_refl _)] at this
    exact this
  have hc : ∀ t, calls (step s a) t = calls s t := by intro t; unfold calls; rw [hlog]
  have g : ∀ t : Nat, t ≠ s.threads.length → (step s a).threads[t]? = s.threads[t]? := by
    intro t ht
    rw [hthr]
    rcases Nat.lt_or_ge t s.threads.length with h1 | h1
    · rw [List.getElem?_append_left h1]
    · rw [List.getElem?_eq_none (by simp; omega), List.getElem?_eq_none h1]
  have gl : (step s a).threads[s.threads.length]? = some th := by rw [hthr]; simp
  refine ⟨?_, ?_, ?_⟩
  · intro t
    rw [hc]
    by_cases e : t = s.threads.length
    · subst e; rw [gl, hempty]; exact hacct
    · rw [g t e]; exact h.acct t
  · intro t e he
    rw [hc] at he
    by_cases et : t = s.threads.length
    · subst et; rw [hempty] at he; cases he
    · obtain ⟨n, c, h1, h2⟩ := h.behind t e he
      exact ⟨n, c, done_step h1 a, by rw [g t et]; exact h2⟩
  · intro t; rw [hc]; exact (h.order t).imp fun hl => hl.step a

/-- Sends that are still under way all account alike. -/
theorem acct_move {sent : Bool} {pc pc' : SPc} (h1 : ∀ r, pc ≠ .done r) (h2 : ∀ r, pc' ≠ .done r) (h3 : pc' ≠ .crashed) {cs : List Call}
    (h : Acct cs (some (.send sent pc))) : Acct cs (some (.send sent pc')) := by
  have hx : (∀ e ∈ cs, e.ok = true) ∧ (sent = true ↔ cs ≠ []) := by
    cases pc <;> first | exact h | exact absurd rfl (h1 _) | exact absurd h (by simp [Acct])
  cases pc' <;> first | exact hx | exact absurd rfl (h2 _) | exact absurd rfl h3

theorem acct_sent {sent : Bool} {pc : SPc} (h1 : ∀ r, pc ≠ .done r) {cs : List Call}
    (h : Acct cs (some (.send sent pc))) : (∀ e ∈ cs, e.ok = true) ∧ (sent = true ↔ cs ≠ []) := by
  cases pc <;> first | exact h | exact absurd rfl (h1 _) | exact absurd h (by simp [Acct])

theorem LogInv.stepReg {s : St} (h : LogInv s) (hI : Inv s) {t c : Nat} {ok : Bool} {pc : RPc} (ht : s.threads[t]? = some (.reg c pc)) :
    LogInv (step s (.run t ok)) := by
  have hs : step s (.run t ok) = Verif.Qnq.stepReg s t c pc := by rw [step, ht]
  by_cases hd : ∃ n, pc = .done n
  · obtain ⟨n, rfl⟩ := hd
    exact h.same _ (by rw [hs]; rfl) (by rw [hs]; rfl)
  · have key : ∃ pc', (step s (.run t ok)).threads[t]? = some (.reg c pc') := by
      have g : ∀ {s' : St}, s'.threads = s.threads → ∀ x, (s'.goto t x).threads[t]? = some x := by
        intro s' hs' x; rw [goto_get (s := s') (by rw [hs']; exact ht)]; simp
      have hI' := (hI.step (.run t ok)).1
      rw [hs] at hI' ⊢
      unfold Verif.Qnq.stepReg at hI' ⊢
      cases pc with
      | done n => exact absurd ⟨n, rfl⟩ hd
      | tryHead => dsimp only; split <;> exact ⟨_, g (by rfl) _⟩
      | walk n => dsimp only; split <;> exact ⟨_, g (by rfl) _⟩
      | cas n => dsimp only; split <;> exact ⟨_, g (by rfl) _⟩
      | chkRead n nx => dsimp only; split <;> exact ⟨_, g (by rfl) _⟩
      | chkCtx n nx =>
        obtain ⟨_, x, _, hx, _⟩ := hI.published (hI.loc _ _ ht).2
        simp only [hx]
        split <;> exact ⟨_, g (by rfl) _⟩
      | chkNext n nx => dsimp only; split <;> exact ⟨_, g (by rfl) _⟩
      | del n nx nn => dsimp only; split <;> exact ⟨_, g (by rfl) _⟩
      | setCtx n => exact ⟨_, g (by rfl) _⟩
      | setHandler n => exact ⟨_, g (by rfl) _⟩
      | setRead n => exact ⟨_, g (by rfl) _⟩
    obtain ⟨pc', hk⟩ := key
    refine h.moved _ t _ (by rw [hs, stepReg_log]) hk ?_ ?_ ?_
    · intro k hk; rw [hs, stepReg_other _ _ _ _ _ hk]
    · intro cs hcs; rw [ht] at hcs; exact hcs
    · intro n _; trivial

theorem LogInv.stepSend {s : St} (h : LogInv s) (hI : Inv s) {t : Nat} {sent ok : Bool} {pc : SPc} (ht : s.threads[t]? = some (.send sent pc)) :
    LogInv (step s (.run t ok)) := by
  have hs : step s (.run t ok) = Verif.Qnq.stepSend s t sent ok pc := by rw [step, ht]
  have ho : ∀ k : Nat, t ≠ k → (step s (.run t ok)).threads[k]? = s.threads[k]? := by
    intro k hk; rw [hs, stepSend_other _ _ _ _ _ _ hk]
  have hloc := hI.loc _ _ ht
  have g : ∀ {s' : St}, s'.threads = s.threads → ∀ x, (s'.goto t x).threads[t]? = some x := by
    intro s' hs' x; rw [goto_get (s := s') (by rw [hs']; exact ht)]; simp
  have mv : ∀ {pc'}, (step s (.run t ok)).log = s.log → (step s (.run t ok)).threads[t]? = some (.send sent pc') → (∀ r, pc ≠ .done r) →
      (∀ r, pc' ≠ .done r) → pc' ≠ .crashed → (∀ n : Nat, Behind n (some (.send sent pc)) → Behind n (some (.send sent pc'))) →
      LogInv (step s (.run t ok)) := by
    intro pc' h1 h2 h3 h4 h5 h6
    refine h.moved _ t _ h1 h2 ho ?_ ?_
    · intro cs hcs; rw [ht] at hcs; exact acct_move h3 h4 h5 hcs
    · intro n hn; rw [ht] at hn; exact h6 n hn
  cases pc with
  | enter n =>
    cases n with
    | none =>
      have hx : (step s (.run t ok)).threads[t]? = some (.send sent (.done (if sent then .nil else .empty))) := by
        rw [hs, Verif.Qnq.stepSend]; exact g rfl _
      refine h.moved _ t _ (by rw [hs]; rfl) hx ho ?_ ?_
      · intro cs hcs
        rw [ht] at hcs
        have hcs : (∀ e ∈ cs, e.ok = true) ∧ (sent = true ↔ cs ≠ []) := hcs
        cases sent
        · show cs = []
          have := hcs.2
          simpa using this
        · exact ⟨hcs.2.mp rfl, hcs.1⟩
      · intro n _; cases sent <;> trivial
    | some n =>
      refine mv (pc' := .chkRead n (nextOf s n)) (by rw [hs]; rfl) ?_ (by simp) (by simp) (by simp) (fun _ hb => hb)
      rw [hs, Verif.Qnq.stepSend]; exact g rfl _
  | chkRead n nx =>
    by_cases hr : readOf s n = true
    · refine mv (pc' := .call n nx) (by rw [hs, Verif.Qnq.stepSend, if_pos hr]; rfl) ?_ (by simp) (by simp) (by simp) (fun _ hb => hb)
      rw [hs, Verif.Qnq.stepSend, if_pos hr]; exact g rfl _
    · refine mv (pc' := .enter nx) (by rw [hs, Verif.Qnq.stepSend, if_neg hr]; rfl) ?_ (by simp) (by simp) (by simp) ?_
      · rw [hs, Verif.Qnq.stepSend, if_neg hr]; exact g rfl _
      · intro m hm
        cases nx with
        | none => trivial
        | some nx =>
          have hm : m < n := hm
          have := (hloc.2 nx rfl).1
          show m < nx
          omega
  | call n nx =>
    obtain ⟨h1, h2, h3⟩ := hloc
    obtain ⟨r, c, hrt, _, hr⟩ := hI.published h3
    have hacct := acct_sent (pc := .call n nx) (by simp) (by have := h.acct t; rw [ht] at this; exact this)
    -- the new thread and the new log
    obtain ⟨pc', sent', hth', hlog, hpc⟩ : ∃ pc' sent', (step s (.run t ok)).threads[t]? = some (.send sent' pc') ∧
        (step s (.run t ok)).log = ⟨t, r, ok⟩ :: s.log ∧
        ((ok = true ∧ sent' = true ∧ pc' = afterCall n nx) ∨ (ok = false ∧ pc' = .done .err)) := by
      rw [hs, Verif.Qnq.stepSend, hr]
      dsimp only
      cases ok
      · exact ⟨_, _, g rfl _, rfl, .inr ⟨rfl, rfl⟩⟩
      · exact ⟨_, _, g rfl _, rfl, .inl ⟨rfl, rfl, rfl⟩⟩
    have hct : calls (step s (.run t ok)) t = ⟨t, r, ok⟩ :: calls s t := by
      rw [calls_cons _ _ _ _ hlog, if_pos rfl]; rfl
    have hco : ∀ k, t ≠ k → calls (step s (.run t ok)) k = calls s k := by
      intro k hk
      rw [calls_cons _ _ _ _ hlog, if_neg (by exact hk)]; rfl
    have hbn : ∀ m : Nat, Behind m (some (.send sent (.call n nx))) → m ≤ n := by
      intro m hm; have hm : m < n := hm; omega
    have hbnew : ∀ m : Nat, m ≤ n → Behind m (some (.send sent' pc')) := by
      intro m hm
      rcases hpc with ⟨_, _, rfl⟩ | ⟨_, rfl⟩
      · cases nx with
        | none => trivial
        | some nx => exact ⟨hm, (h2 nx rfl).1⟩
      · trivial
    have hrt' := done_step hrt (.run t ok)
    refine ⟨?_, ?_, ?_⟩
    · intro k
      by_cases hk : t = k
      · subst hk
        rw [hct, hth']
        rcases hpc with ⟨rfl, rfl, rfl⟩ | ⟨rfl, rfl⟩
        · have hx : (∀ e ∈ (⟨t, r, true⟩ : Call) :: calls s t, e.ok = true) ∧ (true = true ↔ (⟨t, r, true⟩ : Call) :: calls s t ≠ []) := by
            refine ⟨?_, by simp⟩
            intro e he
            rcases List.mem_cons.mp he with rfl | he
            · rfl
            · exact hacct.1 e he
          cases nx <;> exact hx
        · exact ⟨_, _, rfl, rfl, hacct.1⟩
      · rw [hco k hk, ho k hk]; exact h.acct k
    · intro k e he
      by_cases hk : t = k
      · subst hk
        rw [hct] at he
        rw [hth']
        rcases List.mem_cons.mp he with rfl | he
        · exact ⟨n, c, hrt', hbnew n (Nat.le_refl n)⟩
        · obtain ⟨m, c', h4, h5⟩ := h.behind t e he
          rw [ht] at h5
          exact ⟨m, c', done_step h4 _, hbnew m (hbn m h5)⟩
      · rw [hco k hk] at he
        obtain ⟨m, c', h4, h5⟩ := h.behind k e he
        exact ⟨m, c', done_step h4 _, by rw [ho k hk]; exact h5⟩
    · intro k
      by_cases hk : t = k
      · subst hk
        rw [hct, List.pairwise_cons]
        refine ⟨?_, (h.order t).imp fun hl => hl.step _⟩
        intro e he
        obtain ⟨m, c', h4, h5⟩ := h.behind t e he
        rw [ht] at h5
        exact ⟨n, m, c, c', hrt', done_step h4 _, h5⟩
      · rw [hco k hk]; exact (h.order k).imp fun hl => hl.step _
  | nRead n nx =>
    have hb : ∀ m : Nat, Behind m (some (.send sent (.nRead n nx))) → Behind m (some (.send sent (.enter (some nx)))) := by
      intro m hm; obtain ⟨h1, h2⟩ := hm; show m < nx; omega
    by_cases hr : readOf s nx = true
    · refine mv (pc' := .nCtx n nx) (by rw [hs, Verif.Qnq.stepSend, if_pos hr]; rfl) ?_ (by simp) (by simp) (by simp) (fun _ hb => hb)
      rw [hs, Verif.Qnq.stepSend, if_pos hr]; exact g rfl _
    · refine mv (pc' := .enter (some nx)) (by rw [hs, Verif.Qnq.stepSend, if_neg hr]; rfl) ?_ (by simp) (by simp) (by simp) hb
      rw [hs, Verif.Qnq.stepSend, if_neg hr]; exact g rfl _
  | nCtx n nx =>
    have hb : ∀ m : Nat, Behind m (some (.send sent (.nCtx n nx))) → Behind m (some (.send sent (.enter (some nx)))) := by
      intro m hm; obtain ⟨h1, h2⟩ := hm; show m < nx; omega
    obtain ⟨_, x, _, hx, _⟩ := hI.published hloc.2
    by_cases hr : x ∈ s.cancelled
    · refine mv (pc' := .nNext n nx) (by rw [hs, Verif.Qnq.stepSend, hx]; dsimp only; rw [if_pos hr]; rfl) ?_ (by simp) (by simp) (by simp) (fun _ hb => hb)
      rw [hs, Verif.Qnq.stepSend, hx]; dsimp only; rw [if_pos hr]; exact g rfl _
    · refine mv (pc' := .enter (some nx)) (by rw [hs, Verif.Qnq.stepSend, hx]; dsimp only; rw [if_neg hr]; rfl) ?_ (by simp) (by simp) (by simp) hb
      rw [hs, Verif.Qnq.stepSend, hx]; dsimp only; rw [if_neg hr]; exact g rfl _
  | nNext n nx =>
    have hb : ∀ m : Nat, Behind m (some (.send sent (.nNext n nx))) → Behind m (some (.send sent (.enter (some nx)))) := by
      intro m hm; obtain ⟨h1, h2⟩ := hm; show m < nx; omega
    cases hn : nextOf s nx with
    | none =>
      refine mv (pc' := .enter (some nx)) (by rw [hs, Verif.Qnq.stepSend, hn]; rfl) ?_ (by simp) (by simp) (by simp) hb
      rw [hs, Verif.Qnq.stepSend, hn]; exact g rfl _
    | some nn =>
      refine mv (pc' := .del n nx nn) (by rw [hs, Verif.Qnq.stepSend, hn]; rfl) ?_ (by simp) (by simp) (by simp) ?_
      · rw [hs, Verif.Qnq.stepSend, hn]; exact g rfl _
      · intro m hm; exact ⟨hm.1, hm.2, (hI.next nx nn hn).1⟩
  | del n nx nn =>
    by_cases hn : nextOf s n = some nx
    · refine mv (pc' := .enter (some nn)) (by rw [hs, Verif.Qnq.stepSend, if_pos hn]; rfl) ?_ (by simp) (by simp) (by simp) ?_
      · rw [hs, Verif.Qnq.stepSend, if_pos hn]; exact g (s' := s.store n _) rfl _
      · intro m hm; obtain ⟨h1, h2, h3⟩ := hm; show m < nn; omega
    · refine mv (pc' := .enter (some nx)) (by rw [hs, Verif.Qnq.stepSend, if_neg hn]; rfl) ?_ (by simp) (by simp) (by simp) ?_
      · rw [hs, Verif.Qnq.stepSend, if_neg hn]; exact g rfl _
      · intro m hm; obtain ⟨h1, h2, h3⟩ := hm; show m < nx; omega
  | done r => exact h.same _ (by rw [hs]; rfl) (by rw [hs]; rfl)
  | crashed => exact h.same _ (by rw [hs]; rfl) (by rw [hs]; rfl)

theorem LogInv.step {s : St} (h : LogInv s) (hI : Inv s) (a : Act) : LogInv (step s a) := by
  cases a with
  | cancel c => exact h.same _ (by rw [Verif.Qnq.step]; split <;> rfl) (by rw [Verif.Qnq.step]; split <;> rfl)
  | register c => exact h.spawn _ _ rfl rfl rfl
  | send => exact h.spawn _ _ rfl rfl ⟨by simp, by simp⟩
  | run t ok =>
    cases ht : s.threads[t]? with
    | none => exact h.same _ (by rw [Verif.Qnq.step, ht]) (by rw [Verif.Qnq.step, ht])
    | some th =>
      cases th with
      | reg c pc => exact h.stepReg hI ht
      | send sent pc => exact h.stepSend hI ht

theorem logInv_init : LogInv init := by
  refine ⟨?_, ?_, ?_⟩
  · intro t; show Acct [] ([] : List Thread)[t]?; simp [Acct]
  · intro t e he; cases he
  · intro t; exact List.Pairwise.nil

theorem LogInv.run {s : St} (h : LogInv s) (hI : Inv s) (as : List Act) : LogInv (run s as) := by
  induction as generalizing s with
  | nil => exact h
  | cons a as ih => exact ih (h.step hI a) (hI.step a).1

end Verif.Qnq
