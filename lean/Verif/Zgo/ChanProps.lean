import Verif.Zgo.ChanLemmas

/-!
# zgo channels: properties C171 to C173
-/
namespace Verif.Zgo.Chan
open Spec

/-- C171: whatever the schedule, what was received is what was sent, in the order it was sent, without loss
and without repetition. -/
theorem received_is_a_prefix_of_sent (cap : Nat) (programs : List (List Call)) (as : List Act) (s : State)
    (es : List Event) (h : exec (make cap programs) as = some (s, es)) : gotValues es <+: sentValues es := by
  have := queue_exec as _ s es h
  simp only [make, List.nil_append] at this
  exact ⟨s.buf, this.symm⟩

/-- C171: every goroutine makes its calls in the order of its program. -/
theorem calls_in_program_order (cap : Nat) (programs : List (List Call)) (as : List Act) (s : State)
    (es : List Event) (h : exec (make cap programs) as = some (s, es)) (i : Nat) (p : List Call)
    (hp : programs[i]? = some p) : callsOf i es <+: p := by
  obtain ⟨q, _, hq⟩ := left_exec as _ s es i p h (by rw [left_make]; exact hp)
  exact ⟨q, hq.symm⟩

/-- C171: when no call is left and nobody was cut off, and as many values were received as sent, everything
sent was received, in order. -/
theorem everything_is_received (cap : Nat) (programs : List (List Call)) (as : List Act) (s : State)
    (es : List Event) (h : exec (make cap programs) as = some (s, es))
    (hn : (gotValues es).length = (sentValues es).length) : gotValues es = sentValues es :=
  (received_is_a_prefix_of_sent cap programs as s es h).eq_of_length hn

/-- Two producers and a consumer. -/
def producers : List (List Call) := [[.send 1, .send 2], [.send 3], [.recv, .recv, .recv]]

example : ∃ s, exec (make 2 producers) [.run 0, .run 1, .run 2, .run 0, .run 2, .run 2] =
    some (s, [.sent 0 1, .sent 1 3, .got 2 1, .sent 0 2, .got 2 3, .got 2 2]) := ⟨_, rfl⟩

/-- C172, in part: a send returns only while fewer than the capacity and one more are on their way. -/
theorem sends_are_bounded_partial (cap : Nat) (programs : List (List Call)) (as : List Act) (s : State)
    (es : List Event) (h : exec (make cap programs) as = some (s, es)) :
    (sentValues es).length ≤ (gotValues es).length + (cap + 1) := by
  have h1 := queue_exec as _ s es h
  simp only [make, List.nil_append] at h1
  have h2 := room_exec as _ s es h (by simp [make])
  rw [h1, List.length_append]
  have h3 : s.cap = cap := h2.2
  have := h2.1
  omega

/-- C172 fails at every capacity: with nobody receiving, one value more than the capacity can be sent. On a
channel without a buffer, a send does not wait for a receiver. -/
theorem sends_are_bounded_fails (cap : Nat) :
    ∃ as s es, exec (make cap [List.replicate (cap + 1) (.send 0)]) as = some (s, es) ∧
      (sentValues es).length = (gotValues es).length + (cap + 1) ∧ s.threads = [⟨.ready, []⟩] := by
  have key : ∀ (n : Nat) (s : State), s.panicked = false → s.sig = none → s.buf.length + n = s.cap + 1 →
      s.threads = [⟨.ready, List.replicate n (.send 0)⟩] →
      ∃ as s' es, exec s as = some (s', es) ∧ (sentValues es).length = n ∧ gotValues es = [] ∧
        s'.threads = [⟨.ready, []⟩] := by
    intro n
    induction n with
    | zero => intro s _ _ _ ht; exact ⟨[], s, [], rfl, rfl, rfl, by simpa using ht⟩
    | succ n ih =>
      intro s hp hs hb ht
      have hnf : s.buf.length ≠ s.cap + 1 := by omega
      have hstep : step s (.run 0) = some ({ s with
          buf := s.buf ++ [0], sig := none, threads := [⟨.ready, List.replicate n (.send 0)⟩] }, [.sent 0 0]) := by
        simp [step, hp, ht, List.replicate_succ, sendStep, State.full, clearSig, hs, hnf, finish, wake]
      obtain ⟨as, s', es, h1, h2, h3, h4⟩ := ih { s with
          buf := s.buf ++ [0], sig := none, threads := [⟨.ready, List.replicate n (.send 0)⟩] } hp rfl
          (by simp; omega) rfl
      exact ⟨.run 0 :: as, s', .sent 0 0 :: es, by simp [exec, hstep, h1], by simp [sentValues, h2],
        by simp [gotValues, h3], h4⟩
  obtain ⟨as, s', es, h1, h2, h3, h4⟩ :=
    key (cap + 1) (make cap [List.replicate (cap + 1) (.send 0)]) rfl rfl (by simp [make]) rfl
  exact ⟨as, s', es, h1, by simp [h2, h3], h4⟩

/-- C173, in part: with one receiving goroutine that only receives, room for all that is sent, and something
for every receive, no schedule without spurious wake-ups gets stuck. -/
theorem never_stuck_partial (cap r : Nat) (programs : List (List Call)) (h1 : OneReceiver r programs)
    (h2 : OnlyReceives r programs) (h3 : total sends programs ≤ cap + 1)
    (h4 : total recvs programs ≤ total sends programs) (as : List Act) (hn : NoSpurious as) (s : State)
    (es : List Event) (h : exec (make cap programs) as = some (s, es)) : ¬ Stuck s :=
  roomy_not_stuck r s
    (exec_invariant (P := Roomy r) _ (fun s s' a es => roomy_step r s s' a es) as _ s es
      (roomy_make cap r programs h1 h2 h3 h4) hn h)

/-- C173, in part: with one receiving goroutine and no spurious wake-ups, nobody panics, however much is sent
and whatever the room. -/
theorem never_panics_partial (cap r : Nat) (programs : List (List Call)) (h1 : OneReceiver r programs)
    (as : List Act) (hn : NoSpurious as) (s : State) (es : List Event)
    (h : exec (make cap programs) as = some (s, es)) : s.panicked = false :=
  (exec_invariant (P := Safe r) _ (fun s s' a es => safe_step r s s' a es) as _ s es
    (safe_make cap r programs h1) hn h).fine

example : OneReceiver 2 producers ∧ OnlyReceives 2 producers ∧ total sends producers ≤ 2 + 1 ∧
    total recvs producers ≤ total sends producers := by
  refine ⟨fun i p hp hi => ?_, fun p hp => ?_, by decide, by decide⟩
  · match i, hp with
    | 0, hp => simp [producers] at hp; subst hp; rfl
    | 1, hp => simp [producers] at hp; subst hp; rfl
    | 2, _ => exact absurd rfl hi
    | n + 3, hp => simp [producers] at hp
  · simp [producers] at hp; subst hp; rfl

/-- Decidable form of `Stuck`, for the witnesses. -/
theorem stuck_of {s : State} (h : ∀ i < s.threads.length, step s (.run i) = none)
    (hc : ∃ t ∈ s.threads, t.calls ≠ []) : Stuck s := by
  refine ⟨fun i => ?_, hc⟩
  by_cases hi : i < s.threads.length
  · exact h i hi
  · simp only [step]
    split
    · rfl
    · rw [List.getElem?_eq_none (by omega)]

/-- C173 fails: one goroutine sends twice, another receives twice, on a channel without a buffer. The sender
waits for room, the receiver takes the first value without telling it, and then waits for the second. -/
theorem sender_not_woken_fails : ∃ s es,
    exec (make 0 [[.send 1, .send 2], [.recv, .recv]]) [.run 0, .run 0, .run 1, .run 1] = some (s, es) ∧
      Stuck s ∧ s.panicked = false := by
  refine ⟨_, _, rfl, ?_, rfl⟩
  exact stuck_of (by decide) (by decide)

/-- C173 fails for any room: of two receivers that wait, only the last is told, however much is sent. -/
theorem receiver_not_woken_fails : ∃ s es,
    exec (make 9 [[.recv], [.recv], [.send 1, .send 2]]) [.run 0, .run 1, .run 2, .run 2, .run 1] = some (s, es) ∧
      Stuck s ∧ s.panicked = false ∧ s.buf = [2] := by
  refine ⟨_, _, rfl, ?_, rfl, rfl⟩
  exact stuck_of (by decide) (by decide)

/-- C173 fails: a value that another receiver takes first makes the woken one panic. -/
theorem stolen_value_fails : ∃ s es,
    exec (make 9 [[.recv], [.recv], [.send 1]]) [.run 0, .run 2, .run 1, .run 0] = some (s, es) ∧
      s.panicked = true := ⟨_, _, rfl, rfl⟩

/-- C173 fails: a spurious wake-up makes the receiver panic. -/
theorem spurious_wakeup_fails : ∃ s es,
    exec (make 9 [[.recv], [.send 1]]) [.run 0, .spurious 0, .run 0] = some (s, es) ∧ s.panicked = true :=
  ⟨_, _, rfl, rfl⟩

end Verif.Zgo.Chan
