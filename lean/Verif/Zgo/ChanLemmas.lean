import Verif.Zgo.ChanSpec

/-!
# zgo channels: lemmas
-/
namespace Verif.Zgo.Chan
open Spec

theorem sentValues_append (a b : List Event) : sentValues (a ++ b) = sentValues a ++ sentValues b := by
  induction a with
  | nil => rfl
  | cons e a ih => cases e <;> simp [sentValues, ih]

theorem gotValues_append (a b : List Event) : gotValues (a ++ b) = gotValues a ++ gotValues b := by
  induction a with
  | nil => rfl
  | cons e a ih => cases e <;> simp [gotValues, ih]

theorem callsOf_append (i : Nat) (a b : List Event) : callsOf i (a ++ b) = callsOf i a ++ callsOf i b := by
  induction a with
  | nil => rfl
  | cons e a ih => cases e <;> simp only [callsOf, List.cons_append, ih] <;> split <;> simp

/-! ## The steps, one by one -/

/-- What a step can be. -/
inductive Steps (s : State) : Act → State → List Event → Prop
  | sendFull (i : Nat) (t : Thread) (v : Nat) (rest : List Call) (ht : s.threads[i]? = some t)
      (hst : t.status ≠ .waiting) (hc : t.calls = .send v :: rest) (hf : s.buf.length = s.cap + 1) :
      Steps s (.run i) (wait { s with sig := clearSig s.sig t.status } i t) []
  | sendWrite (i : Nat) (t : Thread) (v : Nat) (rest : List Call) (ht : s.threads[i]? = some t)
      (hst : t.status ≠ .waiting) (hc : t.calls = .send v :: rest) (hf : s.buf.length ≠ s.cap + 1) :
      Steps s (.run i)
        { s with
          sig := clearSig s.sig t.status
          buf := s.buf ++ [v]
          threads := wake (finish s.threads i rest) (clearSig s.sig t.status) } [.sent i v]
  | recvWait (i : Nat) (t : Thread) (rest : List Call) (ht : s.threads[i]? = some t)
      (hst : t.status = .ready) (hc : t.calls = .recv :: rest) (hb : s.buf = []) :
      Steps s (.run i) (wait { s with sig := clearSig s.sig t.status } i t) []
  | recvPanic (i : Nat) (t : Thread) (rest : List Call) (ht : s.threads[i]? = some t)
      (hst : t.status = .woken) (hc : t.calls = .recv :: rest) (hb : s.buf = []) :
      Steps s (.run i) { s with sig := clearSig s.sig t.status, panicked := true } []
  | recvRead (i : Nat) (t : Thread) (v : Nat) (buf : List Nat) (rest : List Call) (ht : s.threads[i]? = some t)
      (hst : t.status ≠ .waiting) (hc : t.calls = .recv :: rest) (hb : s.buf = v :: buf) :
      Steps s (.run i)
        { s with
          sig := clearSig s.sig t.status
          buf := buf
          threads := finish s.threads i rest } [.got i v]
  | spurious (i : Nat) (t : Thread) (ht : s.threads[i]? = some t) (hst : t.status = .waiting) :
      Steps s (.spurious i) { s with threads := s.threads.set i { t with status := .woken } } []

theorem steps_of_step {s s' : State} {a : Act} {es : List Event} (h : step s a = some (s', es)) :
    s.panicked = false ∧ Steps s a s' es := by
  cases a with
  | run i =>
    simp only [step] at h
    split at h
    · simp at h
    next hp =>
    refine ⟨by simpa using hp, ?_⟩
    split at h
    · simp at h
    next t ht =>
    split at h
    · simp at h
    next hst =>
    split at h
    · simp at h
    · next v rest hc =>
      simp only [sendStep, Option.some.injEq] at h
      by_cases hf : s.buf.length = s.cap + 1
      · rw [if_pos (by simpa [State.full] using hf), Prod.mk.injEq] at h
        obtain ⟨rfl, rfl⟩ := h
        exact .sendFull i t v rest ht hst hc hf
      · rw [if_neg (by simpa [State.full] using hf), Prod.mk.injEq] at h
        obtain ⟨rfl, rfl⟩ := h
        exact .sendWrite i t v rest ht hst hc hf
    · next rest hc =>
      simp only [recvStep, Option.some.injEq] at h
      split at h
      · next hb =>
        split at h
        · next hw =>
          simp only [Prod.mk.injEq] at h
          obtain ⟨rfl, rfl⟩ := h
          exact .recvPanic i t rest ht hw hc hb
        · next hw =>
          simp only [Prod.mk.injEq] at h
          obtain ⟨rfl, rfl⟩ := h
          exact .recvWait i t rest ht (by cases hs : t.status <;> simp_all) hc hb
      · next v buf hb =>
        simp only [Prod.mk.injEq] at h
        obtain ⟨rfl, rfl⟩ := h
        exact .recvRead i t v buf rest ht hst hc hb
  | spurious i =>
    simp only [step] at h
    split at h
    · simp at h
    next hp =>
    refine ⟨by simpa using hp, ?_⟩
    split at h
    · simp at h
    next t ht =>
    split at h
    · next hst =>
      simp only [Option.some.injEq, Prod.mk.injEq] at h
      obtain ⟨rfl, rfl⟩ := h
      exact .spurious i t ht hst
    · simp at h

/-- Invariants of steps are invariants of schedules. -/
theorem exec_invariant {P : State → Prop} (ok : Act → Prop)
    (hstep : ∀ s s' a es, P s → ok a → s.panicked = false → Steps s a s' es → P s') :
    ∀ (as : List Act) (s s' : State) (es : List Event), P s → (∀ a ∈ as, ok a) → exec s as = some (s', es) → P s' := by
  intro as
  induction as with
  | nil => intro s s' es hP _ h; simp [exec] at h; rw [← h.1]; exact hP
  | cons a as ih =>
    intro s s' es hP hok h
    simp only [exec] at h
    split at h
    · simp at h
    next s1 e1 h1 =>
    split at h
    · simp at h
    next s2 e2 h2 =>
    simp at h
    obtain ⟨hp, hst⟩ := steps_of_step h1
    rw [← h.1]
    exact ih s1 s2 e2 (hstep s s1 a e1 hP (hok a List.mem_cons_self) hp hst)
      (fun b hb => hok b (List.mem_cons_of_mem _ hb)) h2

/-! ## First in, first out -/

theorem queue_step {s s' : State} {a : Act} {es : List Event} (h : Steps s a s' es) :
    s.buf ++ sentValues es = gotValues es ++ s'.buf := by
  cases h <;> simp_all [sentValues, gotValues, wait]

theorem queue_exec : ∀ (as : List Act) (s s' : State) (es : List Event), exec s as = some (s', es) →
    s.buf ++ sentValues es = gotValues es ++ s'.buf := by
  intro as
  induction as with
  | nil => intro s s' es h; simp [exec] at h; obtain ⟨rfl, rfl⟩ := h; simp [sentValues, gotValues]
  | cons a as ih =>
    intro s s' es h
    simp only [exec] at h
    split at h
    · simp at h
    next s1 e1 h1 =>
    split at h
    · simp at h
    next s2 e2 h2 =>
    simp at h
    obtain ⟨rfl, rfl⟩ := h
    rw [sentValues_append, gotValues_append, ← List.append_assoc, queue_step (steps_of_step h1).2,
      List.append_assoc, ih s1 s2 e2 h2, List.append_assoc]

/-! ## Threads -/

theorem calls_wake (ts : List Thread) (sig : Option Nat) (k : Nat) :
    (wake ts sig)[k]?.map Thread.calls = ts[k]?.map Thread.calls := by
  unfold wake
  split
  · rfl
  next j =>
  split
  · next t ht =>
    split
    · rw [List.getElem?_set]
      split
      · next hjk => subst hjk; simp only [ht]; split <;> simp_all
      · rfl
    · rfl
  · rfl

/-- The calls left of goroutine `k`. -/
def left (s : State) (k : Nat) : Option (List Call) := s.threads[k]?.map Thread.calls

theorem left_set (ts : List Thread) (i k : Nat) (t : Thread) (h : i < ts.length) :
    (ts.set i t)[k]?.map Thread.calls = if i = k then some t.calls else ts[k]?.map Thread.calls := by
  rw [List.getElem?_set]
  split <;> simp_all

theorem lt_of_some {ts : List Thread} {i : Nat} {t : Thread} (h : ts[i]? = some t) : i < ts.length := by
  exact (List.getElem?_eq_some_iff.mp h).1

theorem left_step {s s' : State} {a : Act} {es : List Event} (h : Steps s a s' es) (k : Nat) (p : List Call)
    (hp : left s k = some p) : ∃ q, left s' k = some q ∧ p = callsOf k es ++ q := by
  unfold left at hp ⊢
  cases h with
  | sendFull i t v rest ht hst hc hf =>
    simp only [wait]
    rw [left_set _ _ _ _ (lt_of_some ht)]
    refine ⟨p, ?_, rfl⟩
    split
    · next h => subst h; simpa [ht] using hp
    · exact hp
  | sendWrite i t v rest ht hst hc hf =>
    simp only
    rw [calls_wake, finish, left_set _ _ _ _ (lt_of_some ht)]
    split
    · next h =>
      subst h
      refine ⟨rest, rfl, ?_⟩
      simp [ht] at hp
      simp [callsOf, ← hp, hc]
    · next h => exact ⟨p, hp, by simp [callsOf, h]⟩
  | recvWait i t rest ht hst hc hb =>
    simp only [wait]
    rw [left_set _ _ _ _ (lt_of_some ht)]
    refine ⟨p, ?_, rfl⟩
    split
    · next h => subst h; simpa [ht] using hp
    · exact hp
  | recvPanic i t rest ht hst hc hb => exact ⟨p, hp, rfl⟩
  | recvRead i t v buf rest ht hst hc hb =>
    simp only
    rw [finish, left_set _ _ _ _ (lt_of_some ht)]
    split
    · next h =>
      subst h
      refine ⟨rest, rfl, ?_⟩
      simp [ht] at hp
      simp [callsOf, ← hp, hc]
    · next h => exact ⟨p, hp, by simp [callsOf, h]⟩
  | spurious i t ht hst =>
    simp only
    rw [left_set _ _ _ _ (lt_of_some ht)]
    refine ⟨p, ?_, rfl⟩
    split
    · next h => subst h; simpa [ht] using hp
    · exact hp

theorem left_exec : ∀ (as : List Act) (s s' : State) (es : List Event) (k : Nat) (p : List Call),
    exec s as = some (s', es) → left s k = some p → ∃ q, left s' k = some q ∧ p = callsOf k es ++ q := by
  intro as
  induction as with
  | nil => intro s s' es k p h hp; simp [exec] at h; obtain ⟨rfl, rfl⟩ := h; exact ⟨p, hp, rfl⟩
  | cons a as ih =>
    intro s s' es k p h hp
    simp only [exec] at h
    split at h
    · simp at h
    next s1 e1 h1 =>
    split at h
    · simp at h
    next s2 e2 h2 =>
    simp at h
    obtain ⟨rfl, rfl⟩ := h
    obtain ⟨q, hq, rfl⟩ := left_step (steps_of_step h1).2 k p hp
    obtain ⟨r, hr, rfl⟩ := ih s1 s2 e2 k q h2 hq
    exact ⟨r, hr, by rw [callsOf_append, List.append_assoc]⟩

theorem left_make (cap : Nat) (ps : List (List Call)) (k : Nat) : left (make cap ps) k = ps[k]? := by
  simp only [left, make, List.getElem?_map, Option.map_map]
  cases ps[k]? <;> rfl

/-! ## Room -/

theorem room_exec (as : List Act) (s s' : State) (es : List Event) (h : exec s as = some (s', es))
    (hs : s.buf.length ≤ s.cap + 1) : s'.buf.length ≤ s'.cap + 1 ∧ s'.cap = s.cap := by
  refine exec_invariant (P := fun x => x.buf.length ≤ x.cap + 1 ∧ x.cap = s.cap) (fun _ => True) ?_ as s s' es
    ⟨hs, rfl⟩ (fun _ _ => trivial) h
  intro x x' a es ⟨h1, h2⟩ _ _ hst
  cases hst <;> simp_all [wait]
  · omega
  · omega

/-! ## One receiver does not panic -/

/-- Only `r` has receives left; if it was told to go on, there is something to receive; nobody panicked. -/
structure Safe (r : Nat) (s : State) : Prop where
  others : ∀ (i : Nat) (t : Thread), s.threads[i]? = some t → i ≠ r → recvs t.calls = 0
  something : ∀ (t : Thread) (rest : List Call), s.threads[r]? = some t → t.status = .woken →
    t.calls = .recv :: rest → s.buf ≠ []
  fine : s.panicked = false

theorem get_wake {ts : List Thread} {sig : Option Nat} {k : Nat} {t : Thread} (h : (wake ts sig)[k]? = some t) :
    ∃ u, ts[k]? = some u ∧ u.calls = t.calls ∧
      (u.status = t.status ∨ (t.status = .woken ∧ u.status = .waiting ∧ sig = some k)) := by
  unfold wake at h
  split at h
  · exact ⟨t, h, rfl, Or.inl rfl⟩
  next j =>
  split at h
  · next u hu =>
    split at h
    · next hw =>
      rw [List.getElem?_set] at h
      split at h
      · next hjk =>
        subst hjk
        split at h
        · simp at h; subst h; exact ⟨u, hu, rfl, Or.inr ⟨rfl, hw, rfl⟩⟩
        · simp at h
      · exact ⟨t, h, rfl, Or.inl rfl⟩
    · exact ⟨t, h, rfl, Or.inl rfl⟩
  · exact ⟨t, h, rfl, Or.inl rfl⟩

theorem get_set {ts : List Thread} {i k : Nat} {t u : Thread} (h : (ts.set i t)[k]? = some u) :
    (i = k ∧ u = t) ∨ (i ≠ k ∧ ts[k]? = some u) := by
  rw [List.getElem?_set] at h
  split at h
  · next e =>
    split at h
    · simp at h; exact Or.inl ⟨e, h.symm⟩
    · simp at h
  · next e => exact Or.inr ⟨e, h⟩

theorem safe_step (r : Nat) (s s' : State) (a : Act) (es : List Event) (hs : Safe r s) (ha : ∃ i, a = .run i)
    (_ : s.panicked = false) (h : Steps s a s' es) : Safe r s' := by
  cases h with
  | sendFull i t v rest ht hst hc hf =>
    refine ⟨fun k u hu hk => ?_, fun u l hu hw hl => ?_, hs.fine⟩
    · rcases get_set hu with ⟨rfl, rfl⟩ | ⟨_, h⟩
      · exact hs.others _ t ht hk
      · exact hs.others _ u h hk
    · rcases get_set hu with ⟨rfl, rfl⟩ | ⟨_, h⟩
      · simp at hw
      · exact hs.something u l h hw hl
  | sendWrite i t v rest ht hst hc hf =>
    refine ⟨fun k u hu hk => ?_, fun u l hu hw hl => by simp, hs.fine⟩
    obtain ⟨w, hw, hwc, _⟩ := get_wake hu
    rw [← hwc]
    rcases get_set hw with ⟨rfl, rfl⟩ | ⟨_, h⟩
    · have := hs.others _ t ht hk
      rw [hc] at this
      exact this
    · exact hs.others _ w h hk
  | recvWait i t rest ht hst hc hb =>
    refine ⟨fun k u hu hk => ?_, fun u l hu hw hl => ?_, hs.fine⟩
    · rcases get_set hu with ⟨rfl, rfl⟩ | ⟨_, h⟩
      · exact hs.others _ t ht hk
      · exact hs.others _ u h hk
    · rcases get_set hu with ⟨rfl, rfl⟩ | ⟨_, h⟩
      · simp at hw
      · exact hs.something u l h hw hl
  | recvPanic i t rest ht hst hc hb =>
    by_cases hir : i = r
    · subst hir; exact absurd hb (hs.something t rest ht hst hc)
    · have := hs.others i t ht hir
      rw [hc] at this; simp [recvs] at this
  | recvRead i t v buf rest ht hst hc hb =>
    by_cases hir : i = r
    · subst hir
      refine ⟨fun k u hu hk => ?_, fun u l hu hw hl => ?_, hs.fine⟩
      · rcases get_set hu with ⟨rfl, rfl⟩ | ⟨_, h⟩
        · exact absurd rfl hk
        · exact hs.others _ u h hk
      · rcases get_set hu with ⟨_, rfl⟩ | ⟨h, _⟩
        · simp at hw
        · exact absurd rfl h
    · have := hs.others i t ht hir
      rw [hc] at this; simp [recvs] at this
  | spurious i t ht hst => obtain ⟨j, hj⟩ := ha; simp at hj

theorem safe_make (cap r : Nat) (ps : List (List Call)) (h : OneReceiver r ps) : Safe r (make cap ps) := by
  refine ⟨fun i t ht hi => ?_, fun t l ht hw _ => ?_, rfl⟩
  · simp [make] at ht
    obtain ⟨p, hp, rfl⟩ := ht
    exact h i p hp hi
  · simp [make] at ht
    obtain ⟨p, hp, rfl⟩ := ht
    simp at hw

/-! ## With enough room nobody is stuck -/

/-- Calls of all goroutines. -/
def sumLeft (f : List Call → Nat) : List Thread → Nat
  | [] => 0
  | t :: ts => f t.calls + sumLeft f ts

theorem sum_set (f : List Call → Nat) : ∀ (ts : List Thread) (i : Nat) (t u : Thread), ts[i]? = some t →
    sumLeft f (ts.set i u) + f t.calls = sumLeft f ts + f u.calls
  | [], i, t, u, h => by simp at h
  | x :: ts, 0, t, u, h => by simp at h; subst h; simp [sumLeft]; omega
  | x :: ts, i + 1, t, u, h => by
      simp at h
      have := sum_set f ts i t u h
      simp [sumLeft]; omega

theorem sum_wake (f : List Call → Nat) (ts : List Thread) (sig : Option Nat) :
    sumLeft f (wake ts sig) = sumLeft f ts := by
  unfold wake
  split
  · rfl
  next j =>
  split
  · next t ht =>
    split
    · have := sum_set f ts j t { t with status := .woken } ht
      simp at this; omega
    · rfl
  · rfl

theorem sum_make (f : List Call → Nat) (cap : Nat) (ps : List (List Call)) :
    sumLeft f (make cap ps).threads = total f ps := by
  simp only [make]
  induction ps with
  | nil => rfl
  | cons p ps ih => simp only [List.map_cons, sumLeft, total]; rw [← ih]

theorem le_sum (f : List Call → Nat) : ∀ (ts : List Thread) (i : Nat) (t : Thread), ts[i]? = some t →
    f t.calls ≤ sumLeft f ts
  | [], i, t, h => by simp at h
  | x :: ts, 0, t, h => by simp at h; subst h; simp [sumLeft]
  | x :: ts, i + 1, t, h => by
      simp at h
      have := le_sum f ts i t h
      simp [sumLeft]; omega

theorem sum_zero (f : List Call → Nat) : ∀ (ts : List Thread), (∀ t ∈ ts, f t.calls = 0) → sumLeft f ts = 0
  | [], _ => rfl
  | x :: ts, h => by
      simp only [sumLeft, h x List.mem_cons_self, Nat.zero_add]
      exact sum_zero f ts fun t ht => h t (List.mem_cons_of_mem _ ht)

/-- There is room for all sends left; there is something for all receives left; only the receiver waits, with
nothing to receive, and its condition is the one that will be signalled. -/
structure Roomy (r : Nat) (s : State) : Prop where
  safe : Safe r s
  only : ∀ (t : Thread), s.threads[r]? = some t → sends t.calls = 0
  room : sumLeft sends s.threads + s.buf.length ≤ s.cap + 1
  enough : sumLeft recvs s.threads ≤ sumLeft sends s.threads + s.buf.length
  senders : ∀ (i : Nat) (t : Thread), s.threads[i]? = some t → i ≠ r → t.status = .ready
  receiver : ∀ (t : Thread), s.threads[r]? = some t → t.status = .waiting → s.buf = [] ∧ s.sig = some r

theorem roomy_step (r : Nat) (s s' : State) (a : Act) (es : List Event) (hs : Roomy r s) (ha : ∃ i, a = .run i)
    (hp : s.panicked = false) (h : Steps s a s' es) : Roomy r s' := by
  have hsafe := safe_step r s s' a es hs.safe ha hp h
  cases h with
  | sendFull i t v rest ht hst hc hf =>
    have := le_sum sends s.threads i t ht
    rw [hc] at this
    simp [sends] at this
    have := hs.room
    omega
  | sendWrite i t v rest ht hst hc hf =>
    have hir : i ≠ r := by
      intro e; subst e
      have := hs.only t ht
      rw [hc] at this; simp [sends] at this
    have hrdy : t.status = .ready := hs.senders i t ht hir
    have h1 := sum_set sends s.threads i t ⟨.ready, rest⟩ ht
    have h2 := sum_set recvs s.threads i t ⟨.ready, rest⟩ ht
    rw [hc] at h1 h2
    simp only [sends, recvs] at h1 h2
    have hroom := hs.room
    have henough := hs.enough
    refine ⟨hsafe, fun u hu => ?_, ?_, ?_, fun k u hu hk => ?_, fun u hu hw => ?_⟩
    · obtain ⟨w, hw, hwc, _⟩ := get_wake hu
      rw [← hwc]
      rcases get_set hw with ⟨h, _⟩ | ⟨_, h⟩
      · exact absurd h hir
      · exact hs.only w h
    · simp only [sum_wake, finish, List.length_append, List.length_singleton]; omega
    · simp only [sum_wake, finish, List.length_append, List.length_singleton]; omega
    · obtain ⟨w, hw, hwc, hcase⟩ := get_wake hu
      have hwr : w.status = .ready := by
        rcases get_set hw with ⟨_, rfl⟩ | ⟨_, h⟩
        · rfl
        · exact hs.senders k w h hk
      rcases hcase with e | ⟨_, e, _⟩
      · rw [← e]; exact hwr
      · rw [e] at hwr; simp at hwr
    · -- the receiver that waited was signalled
      exfalso
      have hcs : clearSig s.sig t.status = s.sig := by simp [clearSig, hrdy]
      simp only [hcs] at hu
      obtain ⟨w, hg, hwc, hcase⟩ := get_wake hu
      have hww : w.status = .waiting := by
        rcases hcase with e | ⟨e, _, _⟩
        · rw [e]; exact hw
        · rw [e] at hw; simp at hw
      rcases get_set hg with ⟨h, _⟩ | ⟨_, h⟩
      · exact hir h
      · have hsig := (hs.receiver w h hww).2
        simp only [hsig, wake, hg, hww, if_true] at hu
        rw [List.getElem?_set] at hu
        simp only [if_true] at hu
        split at hu
        · simp at hu; subst hu; simp at hw
        · simp at hu
  | recvWait i t rest ht hst hc hb =>
    have hir : i = r := by
      apply Classical.byContradiction
      intro e
      have := hs.safe.others i t ht e
      rw [hc] at this; simp [recvs] at this
    subst hir
    have h1 := sum_set sends s.threads i t { t with status := .waiting } ht
    have h2 := sum_set recvs s.threads i t { t with status := .waiting } ht
    simp only at h1 h2
    have hroom := hs.room
    have henough := hs.enough
    refine ⟨hsafe, fun u hu => ?_, ?_, ?_, fun k u hu hk => ?_, fun u hu hw => ⟨hb, rfl⟩⟩
    · rcases get_set hu with ⟨_, rfl⟩ | ⟨h, _⟩
      · exact hs.only t ht
      · exact absurd rfl h
    · simp only [wait]; omega
    · simp only [wait]; omega
    · rcases get_set hu with ⟨h, _⟩ | ⟨_, h⟩
      · exact absurd h.symm hk
      · exact hs.senders k u h hk
  | recvPanic i t rest ht hst hc hb => exact absurd hsafe.fine (by simp)
  | recvRead i t v buf rest ht hst hc hb =>
    have hir : i = r := by
      apply Classical.byContradiction
      intro e
      have := hs.safe.others i t ht e
      rw [hc] at this; simp [recvs] at this
    subst hir
    have h1 := sum_set sends s.threads i t ⟨.ready, rest⟩ ht
    have h2 := sum_set recvs s.threads i t ⟨.ready, rest⟩ ht
    rw [hc] at h1 h2
    simp only [sends, recvs] at h1 h2
    have hroom := hs.room
    have henough := hs.enough
    rw [hb] at hroom henough
    simp only [List.length_cons] at hroom henough
    refine ⟨hsafe, fun u hu => ?_, ?_, ?_, fun k u hu hk => ?_, fun u hu hw => ?_⟩
    · rcases get_set hu with ⟨_, rfl⟩ | ⟨h, _⟩
      · have := hs.only t ht
        rw [hc] at this; exact this
      · exact absurd rfl h
    · simp only [finish]; omega
    · simp only [finish]; omega
    · rcases get_set hu with ⟨h, _⟩ | ⟨_, h⟩
      · exact absurd h.symm hk
      · exact hs.senders k u h hk
    · rcases get_set hu with ⟨_, rfl⟩ | ⟨h, _⟩
      · simp at hw
      · exact absurd rfl h
  | spurious i t ht hst => obtain ⟨j, hj⟩ := ha; simp at hj

theorem roomy_make (cap r : Nat) (ps : List (List Call)) (h1 : OneReceiver r ps) (h2 : OnlyReceives r ps)
    (h3 : total sends ps ≤ cap + 1) (h4 : total recvs ps ≤ total sends ps) : Roomy r (make cap ps) := by
  refine ⟨safe_make cap r ps h1, fun t ht => ?_, ?_, ?_, fun i t ht hi => ?_, fun t ht hw => ?_⟩
  · simp [make] at ht
    obtain ⟨p, hp, rfl⟩ := ht
    exact h2 p hp
  · rw [sum_make]; simpa [make] using h3
  · rw [sum_make, sum_make]; simpa [make] using h4
  · simp [make] at ht
    obtain ⟨p, hp, rfl⟩ := ht
    rfl
  · simp [make] at ht
    obtain ⟨p, hp, rfl⟩ := ht
    simp at hw

/-- A goroutine that does not wait and has calls to make can go on. -/
theorem can_run {s : State} {i : Nat} {t : Thread} (ht : s.threads[i]? = some t) (hp : s.panicked = false)
    (hst : t.status ≠ .waiting) (hc : t.calls ≠ []) : step s (.run i) ≠ none := by
  simp only [step, hp, ht]
  rw [if_neg hst]
  cases h : t.calls with
  | nil => exact absurd h hc
  | cons c cs => cases c <;> simp

theorem roomy_not_stuck (r : Nat) (s : State) (hs : Roomy r s) : ¬ Stuck s := by
  intro ⟨hn, t, ht, hc⟩
  have others : ∀ (i : Nat) (u : Thread), s.threads[i]? = some u → i ≠ r → u.calls = [] := by
    intro i u hu hi
    apply Classical.byContradiction
    intro hne
    exact can_run hu hs.safe.fine (by rw [hs.senders i u hu hi]; simp) hne (hn i)
  obtain ⟨i, hi⟩ := List.mem_iff_getElem?.mp ht
  have hir : i = r := by
    apply Classical.byContradiction
    intro e
    exact hc (others i t hi e)
  subst hir
  have hw : t.status = .waiting := by
    apply Classical.byContradiction
    intro e
    exact can_run hi hs.safe.fine e hc (hn i)
  have hb := (hs.receiver t hi hw).1
  have hz : sumLeft sends s.threads = 0 := by
    refine sum_zero sends _ fun u hu => ?_
    obtain ⟨k, hk⟩ := List.mem_iff_getElem?.mp hu
    by_cases e : k = i
    · subst e; rw [hi] at hk; simp at hk; subst hk; exact hs.only t hi
    · rw [others k u hk e]; rfl
  have henough := hs.enough
  rw [hz, hb] at henough
  simp at henough
  have hle := le_sum recvs s.threads i t hi
  have hno := hs.only t hi
  cases hcs : t.calls with
  | nil => exact hc hcs
  | cons c cs =>
    rw [hcs] at hle hno
    cases c with
    | send v => simp [sends] at hno
    | recv => simp [recvs] at hle; omega

end Verif.Zgo.Chan
