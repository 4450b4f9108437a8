import Verif.Qnq.DurModel
/-!
# C224: what is sent on a channel with a delivery mechanism is handled
-/
namespace Verif.Qnq.Dur
open Verif.Qnq

variable {V : Type}

/-! ## Specification -/

/-- The messages that were sent, by this process without an error of the mechanism or by others, in order. -/
def sent : List (Act V) → List V
  | [] => []
  | .send v false _ :: as => v :: sent as
  | .remote v :: as => v :: sent as
  | _ :: as => sent as

/-- Whether the message is delivered and the listener returns without an error. -/
def succeedsNow [DecidableEq V] (v : V) (s : State V) : Act V → Nat
  | .deliver i true false => if s.subscribed = true ∧ s.pending[i]? = some v then 1 else 0
  | _ => 0

/-- How often the message was delivered and the listener returned without an error. -/
def succeeded [DecidableEq V] (v : V) : State V → List (Act V) → Nat
  | _, [] => 0
  | s, a :: as => succeedsNow v s a + succeeded v (step s a).1 as

/-! ## Lemmas -/

theorem step_subscribed (s : State V) (a : Act V) (h : s.subscribed = true) : (step s a).1.subscribed = true := by
  cases a <;> simp only [step, buffer, callFast] <;> (repeat' split) <;> simp_all

theorem erase_perm : ∀ (l : List V) (i : Nat) (v : V), l[i]? = some v → l.Perm (v :: l.eraseIdx i)
  | [], _, _, h => by simp at h
  | x :: l, 0, v, h => by simp at h; subst h; exact .refl _
  | x :: l, i + 1, v, h => by
    have := erase_perm l i v (by simpa using h)
    exact (this.cons x).trans (.swap v x _)

theorem step_perm (s : State V) (a : Act V) (h : s.subscribed = true) :
    ((step s a).1.pending ++ (step s a).1.acked).Perm (s.pending ++ s.acked ++ sent [a]) := by
  cases a with
  | listen => simp [step, sent]
  | recv => simp only [step]; split <;> simp [sent]
  | remote v =>
    simp only [step, buffer, h, if_true, sent]
    rw [List.append_assoc, List.append_assoc]
    exact (List.perm_append_comm).append_left _
  | send v m l =>
    cases m with
    | true => simp [step, sent]
    | false =>
      have : ((step s (.send v false l)).1.pending, (step s (.send v false l)).1.acked) = (s.pending ++ [v], s.acked) := by
        simp only [step, buffer, h, if_true, callFast]
        split
        · rename_i h'; cases h'
        · split <;> rfl
      simp only [Prod.mk.injEq] at this
      rw [this.1, this.2]
      simp only [sent]
      rw [List.append_assoc, List.append_assoc]
      exact (List.perm_append_comm).append_left _
  | deliver i d l =>
    simp only [step, h, if_true, sent, List.append_nil]
    split
    · exact .refl _
    · rename_i v hv
      have := erase_perm s.pending i v hv
      have step2 : (s.pending.eraseIdx i ++ (s.acked ++ [v])).Perm (s.pending ++ s.acked) := by
        refine List.Perm.trans ?_ (this.append_right _).symm
        rw [← List.append_assoc]
        exact (List.perm_append_comm (l₁ := s.pending.eraseIdx i ++ s.acked) (l₂ := [v]))
      cases d <;> cases l <;> simp only [ack, Bool.false_eq_true, if_true, if_false]
      · exact .refl _
      · exact .refl _
      · exact step2
      · exact .refl _

theorem run_cons (s : State V) (a : Act V) (as : List (Act V)) : run s (a :: as) = run (step s a).1 as := rfl

theorem sent_cons (a : Act V) (as : List (Act V)) : sent (a :: as) = sent [a] ++ sent as := by
  cases a with
  | send v m l => cases m <;> simp [sent]
  | _ => simp [sent]

/-! ## C224 -/

/-- From when the goroutine of `Listen` receives, every message that is sent, here or by another process, is pending or
was acknowledged, whatever fails and whatever is delivered how often. (`_partial`: not from when `Listen` returns,
`listen_fails`.) -/
theorem kept_partial (s : State V) (as : List (Act V)) (h : s.subscribed = true) :
    ((run s as).pending ++ (run s as).acked).Perm (s.pending ++ s.acked ++ sent as) := by
  induction as generalizing s with
  | nil => simp [run, sent]
  | cons a as ih =>
    rw [run_cons, sent_cons, ← List.append_assoc]
    exact (ih _ (step_subscribed s a h)).trans ((step_perm s a h).append_right _)

theorem step_acked [DecidableEq V] (s : State V) (a : Act V) (v : V) :
    (step s a).1.acked.count v = s.acked.count v + succeedsNow v s a := by
  cases a with
  | listen => simp [step, succeedsNow]
  | recv => simp only [step]; split <;> simp [succeedsNow]
  | remote w => simp only [step, buffer]; split <;> simp [succeedsNow]
  | send w m l =>
    have : (step s (.send w m l)).1.acked = s.acked := by
      simp only [step, buffer, callFast]
      (repeat' split) <;> rfl
    simp [this, succeedsNow]
  | deliver i d l =>
    have same : (d = false ∨ l = true) → (step s (.deliver i d l)).1.acked = s.acked := by
      intro h
      have hack : ack d l = true := by rcases h with rfl | rfl <;> simp [ack]
      simp only [step, hack, if_true]
      split
      · split
        · rfl
        · cases d <;> rfl
      · rfl
    cases d with
    | false => simp [same (.inl rfl), succeedsNow]
    | true =>
      cases l with
      | true => simp [same (.inr rfl), succeedsNow]
      | false =>
        simp only [step, ack, succeedsNow]
        split
        · rename_i hs
          split
          · rename_i hn; simp [hn]
          · rename_i w hw
            by_cases e : w = v
            · subst e; simp [hs, hw]
            · simp [hw, e]
        · rename_i hs; simp [hs]

/-- A message is acknowledged exactly when it was delivered and the listener returned without an error: as many times as
the listener did, the message was acknowledged. -/
theorem acked_succeeded [DecidableEq V] (s : State V) (as : List (Act V)) (v : V) :
    (run s as).acked.count v = s.acked.count v + succeeded v s as := by
  induction as generalizing s with
  | nil => simp [run, succeeded]
  | cons a as ih =>
    rw [run_cons, ih (step s a).1, succeeded, step_acked]
    omega

/-- The listener was called with every message that was acknowledged, at least as often. -/
theorem acked_called [DecidableEq V] (as : List (Act V)) (v : V) :
    (run init as).acked.count v ≤ (run init as).calls.count v := by
  have key : ∀ (as : List (Act V)) (s : State V), s.acked.count v ≤ s.calls.count v →
      (run s as).acked.count v ≤ (run s as).calls.count v := by
    intro as
    induction as with
    | nil => exact fun s h => h
    | cons a as ih =>
      intro s h
      rw [run_cons]
      refine ih _ ?_
      cases a with
      | listen => exact h
      | recv => simp only [step]; split <;> exact h
      | remote w => simp only [step, buffer]; split <;> exact h
      | send w m l =>
        have e : (step s (.send w m l)).1.acked = s.acked := by
          simp only [step, buffer, callFast]
          (repeat' split) <;> rfl
        have hc : s.calls.count v ≤ (step s (.send w m l)).1.calls.count v := by
          cases m <;> simp only [step, buffer, callFast, Bool.false_eq_true, if_true, if_false]
          · (repeat' split) <;> simp
          · exact Nat.le_refl _
        rw [e]
        exact Nat.le_trans h hc
      | deliver i d l =>
        simp only [step]
        split
        · split
          · exact h
          · rename_i w _
            cases d <;> cases l <;> simp only [ack, Bool.false_eq_true, if_true, if_false, List.count_append] <;> omega
        · exact h
  exact key as init (Nat.le_refl _)

/-- While the mechanism does not fail, sends in this process reach its listener at once; its failure is the only reason why
a message is not buffered, and is reported. -/
theorem send_reported (s : State V) (v : V) (mechanism listener : Bool) (hr : s.registered = true)
    (hs : s.subscribed = true) :
    let r := step s (.send v mechanism listener)
    (mechanism = true → r = (s, some .err)) ∧
    (mechanism = false → r.1.pending = s.pending ++ [v] ∧ r.1.calls = s.calls ++ [v] ∧
      (r.2 = some .err ↔ listener = true)) := by
  cases mechanism <;> cases listener <;> simp [step, buffer, callFast, fastResult, chanSend, hr, hs]

/-- A history in which two processes send, a delivery fails and another does not. -/
example : let s : State Nat := run init [.listen, .recv, .send 1 false false, .remote 2, .deliver 0 true true, .deliver 1 true false]
    s.subscribed = true ∧ s.pending = [1] ∧ s.acked = [2] ∧ s.calls = [1, 1, 2] := by decide

/-- What another process sends after `Listen` returned, but before its goroutine has run, is never delivered, whatever
happens afterwards. -/
theorem listen_fails (v : V) (as : List (Act V)) (hv : v ∉ sent as) :
    v ∉ (run init (.listen :: .remote v :: as)).calls := by
  have key : ∀ (as : List (Act V)) (s : State V), v ∉ sent as → v ∉ s.pending → v ∉ s.calls → v ∉ (run s as).calls := by
    intro as
    induction as with
    | nil => intro s _ _ h; exact h
    | cons a as ih =>
      intro s h hp hc
      rw [run_cons]
      rw [sent_cons] at h
      simp only [List.mem_append, not_or] at h
      refine ih _ h.2 ?_ ?_
      · cases a with
        | listen => exact hp
        | recv => simp only [step]; split <;> exact hp
        | remote w => simp only [step, buffer]; split <;> simp_all [sent]
        | send w m l => cases m <;> simp only [step, buffer, callFast] <;> (repeat' split) <;> simp_all [sent]
        | deliver i d l =>
          simp only [step]
          split
          · split
            · exact hp
            · have he : v ∉ s.pending.eraseIdx i := fun h => hp (List.mem_of_mem_eraseIdx h)
              cases d <;> simp only [ack] <;> (repeat' split) <;> simp_all
          · exact hp
      · cases a with
        | listen => exact hc
        | recv => simp only [step]; split <;> exact hc
        | remote w => simp only [step, buffer]; split <;> exact hc
        | send w m l => cases m <;> simp only [step, buffer, callFast] <;> (repeat' split) <;> simp_all [sent]
        | deliver i d l =>
          simp only [step]
          split
          · split
            · exact hc
            · rename_i w hw
              have hne : v ≠ w := by rintro rfl; exact hp (List.mem_of_getElem? hw)
              cases d <;> simp only [ack] <;> (repeat' split) <;> simp_all
          · exact hc
  exact key as _ hv (by simp [step, buffer, init]) (by simp [step, buffer, init])

/-- What this process sends is handled twice although nothing fails: by the send, and when the mechanism delivers it. -/
theorem once_fails (v : V) : (run init [.listen, .recv, .send v false false, .deliver 0 true false]).calls = [v, v] := rfl

/-- A send reports an error, so that the caller should send again, although the message is buffered. -/
theorem send_error_fails (s : State V) (v : V) (hr : s.registered = true) (hs : s.subscribed = true) :
    (step s (.send v false true)).2 = some .err ∧ (step s (.send v false true)).1.pending = s.pending ++ [v] := by
  simp [step, buffer, callFast, fastResult, chanSend, hr, hs]

end Verif.Qnq.Dur
