import Verif.Qnq.Lemmas3

/-!
Properties of `qnq.Chan`: C16, C17, C18, C52, C53. A history is any list of actions: new registrations, new sends,
cancellations and single steps of any goroutine, in any order.
-/
namespace Verif.Qnq

theorem run_app (s : St) (as bs : List Act) : run s (as ++ bs) = run (run s as) bs := by
  unfold run; rw [List.foldl_append]

theorem facts (as : List Act) : Inv (run init as) ∧ LogInv (run init as) :=
  ⟨(inv_init.run as).1, logInv_init.run inv_init as⟩

theorem nodup_of_order {s : St} {cs : List Call} (h : cs.Pairwise (Later s)) : (cs.map Call.r).Nodup := by
  rw [List.Nodup, List.pairwise_map]
  refine h.imp ?_
  rintro e e' ⟨n, n', c, c', h1, h2, h3⟩ he
  rw [he] at h1
  rw [h1] at h2
  injection h2 with h2; injection h2 with _ h2; injection h2 with h2
  omega

/-! ### C16: delivery -/

/-- **C16.** Take any history in which listener `r` has finished registering (with context `c`), and then a send `t`,
interleaved with anything else. If that send has returned and `c` is not cancelled by then, either a handler reported an
error (and the send returned it), or the send returned nil and called listener `r` exactly once, with success. -/
theorem send_reaches_listener (as bs : List Act) (r c t : Nat) (res : Res)
    (hr : Listening (run init as) r c) (ht : t = (run init as).threads.length)
    (hc : c ∉ (run init (as ++ .send :: bs)).cancelled) (hres : Returned (run init (as ++ .send :: bs)) t res) :
    res = .err ∨ (res = .nil ∧ (calls (run init (as ++ .send :: bs)) t).count ⟨t, r, true⟩ = 1) := by
  obtain ⟨i, hi⟩ := hr
  have hF := facts (as ++ .send :: bs)
  have hI := (facts as).1
  rw [run_app] at hc hres hF ⊢
  generalize run init as = s at *
  have e : run s (.send :: bs) = run (step s .send) bs := rfl
  rw [e] at hc hres hF ⊢
  have hah := ahead_run (hI.step .send).1 (t := t) (done_step hi .send) (.inr (.inr (by
    show Ahead i (s.threads ++ [Thread.send false (.enter (some 0))])[t]?
    rw [ht, List.getElem?_append_right (Nat.le_refl _)]
    simp [Ahead]))) bs
  generalize run (step s .send) bs = s2 at *
  obtain ⟨sent, hres⟩ := hres
  have hacct := hF.2.acct t
  have hord := hF.2.order t
  rw [hres] at hah hacct
  rcases hah with h | h | h
  · exact absurd h hc
  · have hm : (⟨t, r, true⟩ : Call) ∈ calls s2 t := by unfold calls; rw [List.mem_filter]; exact ⟨h, by simp⟩
    cases res with
    | err => exact .inl rfl
    | empty => rw [show calls s2 t = [] from hacct] at hm; cases hm
    | nil =>
      refine .inr ⟨rfl, ?_⟩
      have hn : (calls s2 t).Nodup := (List.pairwise_map.mp (nodup_of_order hord)).imp fun h he => h (by rw [he])
      rw [hn.count, if_pos hm]
  · cases res with
    | err => exact .inl rfl
    | empty => simp [Ahead] at h
    | nil => simp [Ahead] at h

/-- **C16**, the other half: whatever happens, one send calls no listener twice, and calls only listeners whose
registration has finished. -/
theorem send_calls_once (as : List Act) (t : Nat) :
    ((calls (run init as) t).map Call.r).Nodup ∧ ∀ e ∈ calls (run init as) t, ∃ c, Listening (run init as) e.r c := by
  refine ⟨nodup_of_order ((facts as).2.order t), ?_⟩
  intro e he
  obtain ⟨n, c, h, _⟩ := (facts as).2.behind t e he
  exact ⟨c, n, h⟩

/-- A registration with context 7, then one with the background context, then a send that calls both. -/
def twoListeners : List Act :=
  [.register 7, .register 0] ++ List.replicate 5 (.run 0 true) ++ List.replicate 9 (.run 1 true)

example : Listening (run init twoListeners) 0 7 ∧ Listening (run init twoListeners) 1 0 ∧
    (run init twoListeners).threads.length = 2 ∧ 7 ∉ (run init (twoListeners ++ .send :: List.replicate 20 (.run 2 true))).cancelled ∧
    Returned (run init (twoListeners ++ .send :: List.replicate 20 (.run 2 true))) 2 .nil ∧
    calls (run init (twoListeners ++ .send :: List.replicate 20 (.run 2 true))) 2 = [⟨2, 1, true⟩, ⟨2, 0, true⟩] :=
  ⟨⟨0, by decide +kernel⟩, ⟨1, by decide +kernel⟩, by decide +kernel, by decide +kernel, ⟨true, by decide +kernel⟩, by decide +kernel⟩

/-! ### C17: registration -/

/-- **C17.** Every registration that has returned owns exactly one place in the list, no two share a place, and its place
can be reached from the head unless its context is cancelled. -/
theorem registered_exactly_once (as : List Act) (r c : Nat) (hr : Listening (run init as) r c) :
    (∃ i, readOf (run init as) i = true ∧ handlerOf (run init as) i = some r ∧ ctxOf (run init as) i = some c ∧
      (c ∉ (run init as).cancelled → Reach (run init as) i) ∧
      ∀ j, readOf (run init as) j = true → handlerOf (run init as) j = some r → j = i) := by
  have hI := (facts as).1
  generalize run init as = s at *
  obtain ⟨i, hi⟩ := hr
  obtain ⟨h1, h2, h3⟩ := hI.phase r _ hi
  refine ⟨i, h1, h3, h2, ?_, ?_⟩
  · intro hc
    refine hI.reach (read_lt h1) ?_
    rintro ⟨_, c', hc', hc''⟩
    rw [h2] at hc'; injection hc' with hc'; subst hc'; exact hc hc''
  · intro j hj1 hj2
    obtain ⟨t, c', ht, hcx, hh⟩ := hI.published hj1
    rw [hj2] at hh; injection hh with hh; subst hh
    rw [hi] at ht; injection ht with ht; injection ht with _ ht; injection ht with ht
    exact ht.symm

/-- **C17**, order: when listener `r1` had finished registering before `r2` started, every send that calls both calls
`r1` first (`calls` lists the newest call first). -/
theorem registration_order (as bs : List Act) (r1 r2 c t : Nat) (h1 : Listening (run init as) r1 c)
    (h2 : (run init as).threads.length ≤ r2) (k1 k2 : Nat) (e1 e2 : Call)
    (hk1 : (calls (run init (as ++ bs)) t)[k1]? = some e1) (hk2 : (calls (run init (as ++ bs)) t)[k2]? = some e2)
    (hr1 : e1.r = r1) (hr2 : e2.r = r2) : k2 < k1 := by
  have hF := facts (as ++ bs)
  have hI := (facts as).1
  rw [run_app] at hF hk1 hk2
  generalize run init as = s at *
  obtain ⟨n1, h1⟩ := h1
  have hl1 := hI.lt _ _ _ h1 rfl
  have haf : After s.threads.length (s.nodes.length - 1) s := by
    refine ⟨Nat.le_refl _, ?_⟩
    intro t n th ht hth _
    have := threads_lt hth
    omega
  have haf := after_run hI haf bs
  have hd := done_run h1 bs
  generalize run s bs = s2 at *
  have hord := hF.2.order t
  rw [List.pairwise_iff_getElem] at hord
  have mem : ∀ {k e}, (calls s2 t)[k]? = some e → ∃ h : k < (calls s2 t).length, (calls s2 t)[k] = e := by
    intro k e hk
    exact List.getElem?_eq_some_iff.mp hk
  obtain ⟨b1, g1⟩ := mem hk1
  obtain ⟨b2, g2⟩ := mem hk2
  rcases Nat.lt_trichotomy k1 k2 with h | h | h
  · have := hord k1 k2 b1 b2 h
    rw [g1, g2] at this
    obtain ⟨n, n', c1, c2, p1, p2, p3⟩ := this
    rw [hr1, hd] at p1
    injection p1 with p1; injection p1 with _ p1; injection p1 with p1
    rw [hr2] at p2
    have := haf.2 r2 n' _ h2 p2 rfl
    omega
  · subst h
    rw [hk1] at hk2
    injection hk2 with hk2
    rw [hk2] at hr1
    have := threads_lt h1
    omega
  · exact h

example : ∃ bs, Listening (run init ([.register 7] ++ List.replicate 5 (.run 0 true))) 0 7 ∧
    (calls (run init (([.register 7] ++ List.replicate 5 (.run 0 true)) ++ bs)) 2) = [⟨2, 1, true⟩, ⟨2, 0, true⟩] :=
  ⟨.register 0 :: (List.replicate 9 (.run 1 true) ++ .send :: List.replicate 20 (.run 2 true)), ⟨0, by decide +kernel⟩, by decide +kernel⟩

/-! ### C18: what Send returns -/

/-- **C18.** A send returns the empty-channel error exactly when it called no handler; nil exactly when it called some and
all succeeded; and another error exactly when the last handler it called failed, all earlier ones having succeeded. -/
theorem send_result (as : List Act) (t : Nat) (res : Res) (h : Returned (run init as) t res) :
    (res = .empty ↔ calls (run init as) t = []) ∧
    (res = .nil ↔ calls (run init as) t ≠ [] ∧ ∀ e ∈ calls (run init as) t, e.ok = true) ∧
    (res = .err ↔ ∃ e es, calls (run init as) t = e :: es ∧ e.ok = false ∧ ∀ e ∈ es, e.ok = true) := by
  have ha := (facts as).2.acct t
  generalize run init as = s at *
  obtain ⟨sent, h⟩ := h
  rw [h] at ha
  cases res with
  | empty =>
    have ha : calls s t = [] := ha
    rw [ha]; simp
  | nil =>
    obtain ⟨h1, h2⟩ : calls s t ≠ [] ∧ ∀ e ∈ calls s t, e.ok = true := ha
    refine ⟨by simp [h1], ⟨fun _ => ⟨h1, h2⟩, fun _ => rfl⟩, by simp, ?_⟩
    rintro ⟨e, es, h3, h4, _⟩
    rw [h2 e (by rw [h3]; simp)] at h4; cases h4
  | err =>
    obtain ⟨e, es, h3, h4, h5⟩ : ∃ e t', calls s t = e :: t' ∧ e.ok = false ∧ ∀ e ∈ t', e.ok = true := ha
    refine ⟨by simp [h3], ⟨by simp, ?_⟩, ⟨fun _ => ⟨e, es, h3, h4, h5⟩, fun _ => rfl⟩⟩
    rintro ⟨_, h6⟩
    rw [h6 e (by rw [h3]; simp)] at h4; cases h4

/-- **C18**, safety: no interleaving makes a send or a registration call a nil handler or use a nil context. -/
theorem never_crashes (as : List Act) (t : Nat) (sent : Bool) : (run init as).threads[t]? ≠ some (.send sent .crashed) := by
  intro h
  have ha := (facts as).2.acct t
  rw [h] at ha
  exact ha

/-- **C18**, `Chan.Send` with a delivery mechanism: its error is returned as is; otherwise only a handler's error is, an
absence of listeners being no error. Without one the result is that of the listeners. -/
theorem chan_send_result (impl : Option Bool) (fast : Res) :
    (impl = none → chanSend impl fast = fast) ∧ (impl = some true → chanSend impl fast = .err) ∧
    (impl = some false → chanSend impl fast = if fast = .err then .err else .nil) := by
  refine ⟨?_, ?_, ?_⟩ <;> intro h <;> subst h <;> rfl

example : Returned (run init [.send, .run 0 true, .run 0 true, .run 0 true]) 0 .empty := ⟨false, by decide +kernel⟩
example : Returned (run init (twoListeners ++ .send :: List.replicate 3 (.run 2 false))) 2 .err ∧
    calls (run init (twoListeners ++ .send :: List.replicate 3 (.run 2 false))) 2 = [⟨2, 0, false⟩] :=
  ⟨⟨false, by decide +kernel⟩, by decide +kernel⟩

/-! ### C52: cancelled listeners -/

/-- **C52** as a user expects it: a send that starts after a listener's context was cancelled does not call it. -/
def CancelledNotCalled : Prop :=
  ∀ (as bs : List Act) (r c : Nat), Listening (run init as) r c → c ∈ (run init as).cancelled →
    ∀ e ∈ calls (run init (as ++ .send :: bs)) (run init as).threads.length, e.r ≠ r

/-- **C52 fails**: the listener at the head of the list is never removed nor checked. -/
theorem cancelled_not_called_fails : ¬ CancelledNotCalled := by
  intro h
  exact h ([.register 7] ++ List.replicate 5 (.run 0 true) ++ [.cancel 7]) (List.replicate 3 (.run 1 true)) 0 7
    ⟨0, by decide +kernel⟩ (by decide +kernel) ⟨1, 0, true⟩ (by decide +kernel) rfl

/-- **C52 fails** also away from the head: of two neighbouring cancelled listeners the second is called. -/
theorem cancelled_pair_called :
    let as := [.register 0] ++ List.replicate 5 (.run 0 true) ++ [.register 7] ++ List.replicate 9 (.run 1 true) ++
      [.register 8] ++ List.replicate 12 (.run 2 true) ++ [.cancel 7, .cancel 8]
    Listening (run init as) 1 7 ∧ Listening (run init as) 2 8 ∧
    calls (run init (as ++ .send :: List.replicate 25 (.run 3 true))) 3 = [⟨3, 2, true⟩, ⟨3, 0, true⟩] :=
  ⟨⟨1, by decide +kernel⟩, ⟨2, by decide +kernel⟩, by decide +kernel⟩

/-! ### C53: no goroutine waits for another -/

/-- **C53**, sends: from any state that any history can reach, a send that is run on its own (its handlers succeeding)
returns after finitely many steps, however the other goroutines are suspended. -/
theorem send_obstruction_free (as : List Act) (t : Nat) (sent : Bool) (pc : SPc) (h : (run init as).threads[t]? = some (.send sent pc)) :
    ∃ k res, Returned (run (run init as) (List.replicate k (.run t true))) t res :=
  send_alone _ (facts as).1 h (Nat.le_refl _)

/-- **C53**, registrations: the same for a registration. -/
theorem register_obstruction_free (as : List Act) (t c : Nat) (pc : RPc) (h : (run init as).threads[t]? = some (.reg c pc)) :
    ∃ k, Listening (run (run init as) (List.replicate k (.run t true))) t c :=
  reg_alone' (facts as).1 h

example : (run init [.register 0, .register 0, .run 0 true, .run 1 true, .send, .run 2 true]).threads =
    [.reg 0 (.setCtx 0), .reg 0 (.walk 0), .send false (.chkRead 0 (some 1))] := by decide +kernel

end Verif.Qnq
