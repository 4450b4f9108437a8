import Verif.Xray.Model
/-!
# C39: x-ray queues, C87: readers and writers
-/
namespace Verif.Xray

variable {T V : Type} [DecidableEq T]

theorem upd_same {A B : Type} [DecidableEq A] (f : A → B) (a : A) (b : B) : upd f a b a = b := if_pos rfl
theorem upd_ne {A B : Type} [DecidableEq A] (f : A → B) {a x : A} (b : B) (h : x ≠ a) : upd f a b x = f x := if_neg h

/-- The queue of a type. -/
def St.queue (s : St T V) (t : T) : List V := match s.chans t with
  | some (buf, _) => buf
  | none => []

/-- The invariant: queues are what was added and not yet got; channels are never over capacity;
nobody else holds the lock while somebody writes. -/
structure Inv (ty : V → T) (s : St T V) : Prop where
  fifo : ∀ t, s.added.filter (fun v => ty v = t) = (s.got.filter (fun p => p.1 = t)).map Prod.snd ++ s.queue t
  room : ∀ t buf cap, s.chans t = some (buf, cap) → buf.length ≤ cap ∧ 1 ≤ cap
  excl : ∀ i j, i ≠ j → (s.pc i).writes → ¬ (s.pc j).reads ∧ ¬ (s.pc j).writes
  typed : ∀ t v, v ∈ s.queue t → ty v = t

theorem grown_spec (o : Option (List V × Nat)) (h : ∀ buf cap, o = some (buf, cap) → buf.length ≤ cap ∧ 1 ≤ cap) :
    (grown o).1 = (o.getD ([], 1)).1 ∧ (grown o).1.length < (grown o).2 ∧ 1 ≤ (grown o).2 := by
  have key : (o.getD ([], 1)).1.length ≤ (o.getD ([], 1)).2 ∧ 1 ≤ (o.getD ([], 1)).2 := by
    cases o with
    | none => simp
    | some p => exact h p.1 p.2 rfl
  rcases e : o.getD ([], 1) with ⟨b, c⟩
  rw [e] at key
  simp only at key
  have : grown o = if b.length = c then (b, c * 2) else (b, c) := by rw [grown, e]
  rw [this]
  split
  · exact ⟨rfl, by simp only; omega, by simp only; omega⟩
  · exact ⟨rfl, by simp only; omega, by simp only; omega⟩

theorem queue_getD (s : St T V) (t : T) : ((s.chans t).getD ([], 1)).1 = s.queue t := by
  unfold St.queue
  cases s.chans t <;> rfl

theorem excl_upd {ty : V → T} {s : St T V} (h : Inv ty s) (i : Nat) (p : Pc T V)
    (hw : p.writes → ∀ j, ¬ (s.pc j).reads ∧ ¬ (s.pc j).writes)
    (hr : p.reads → ∀ j, ¬ (s.pc j).writes) :
    ∀ a b, a ≠ b → (upd s.pc i p a).writes → ¬ (upd s.pc i p b).reads ∧ ¬ (upd s.pc i p b).writes := by
  intro a b hab ha
  by_cases ea : a = i
  · subst ea
    rw [upd_same] at ha
    rw [upd_ne _ _ (Ne.symm hab)]
    exact hw ha b
  · rw [upd_ne _ _ ea] at ha
    by_cases eb : b = i
    · subst eb
      rw [upd_same]
      exact ⟨fun x => hr x a ha, fun x => (hw x a).2 ha⟩
    · rw [upd_ne _ _ eb]
      exact h.excl a b hab ha

theorem inv_step {ty : V → T} {done : Bool} {i : Nat} {s s' : St T V} (h : Inv ty s)
    (hs : Step ty done i s s') : Inv ty s' := by
  cases hs with
  | callAdd _ _ v hp => exact ⟨h.fifo, h.room, excl_upd h i _ (by simp [Pc.writes]) (by simp [Pc.reads]), h.typed⟩
  | lock _ _ v hp hl =>
    exact ⟨h.fifo, h.room, excl_upd h i _ (fun _ => hl) (by simp [Pc.reads]), h.typed⟩
  | callGet _ _ t hp => exact ⟨h.fifo, h.room, excl_upd h i _ (by simp [Pc.writes]) (by simp [Pc.reads]), h.typed⟩
  | rlock _ _ t hp hl => exact ⟨h.fifo, h.room, excl_upd h i _ (by simp [Pc.writes]) (fun _ => hl), h.typed⟩
  | some _ _ t v buf cap hp hc =>
    refine ⟨h.fifo, h.room, excl_upd h i _ (by simp [Pc.writes]) (fun _ j hj => ?_), h.typed⟩
    by_cases e : i = j
    · subst e; rw [hp] at hj; exact hj
    · exact (h.excl j i (Ne.symm e) hj).1 (by rw [hp]; trivial)
  | none _ _ t hp hn => exact ⟨h.fifo, h.room, excl_upd h i _ (by simp [Pc.writes]) (by simp [Pc.reads]), h.typed⟩
  | cancel _ _ t hp hd => exact ⟨h.fifo, h.room, excl_upd h i _ (by simp [Pc.writes]) (by simp [Pc.reads]), h.typed⟩
  | receive _ _ t v buf cap hp hc =>
    have hq : s.queue t = v :: buf := by simp [St.queue, hc]
    have q' : ∀ t', ({ chans := upd s.chans t (some (buf, cap)), pc := upd s.pc i .idle, added := s.added, got := s.got ++ [(t, v)] } : St T V).queue t' = if t' = t then buf else s.queue t' := by
      intro t'
      unfold St.queue
      simp only
      by_cases e : t' = t
      · subst e; rw [upd_same]; simp
      · rw [upd_ne _ _ e]; simp [e]
    refine ⟨?_, ?_, excl_upd h i _ (by simp [Pc.writes]) (by simp [Pc.reads]), ?_⟩
    · intro t'
      rw [q']
      simp only
      rw [h.fifo t']
      by_cases e : t' = t
      · subst e; simp [hq]
      · rw [if_neg e]; simp [Ne.symm e]
    · intro t' b c hb
      simp only at hb
      by_cases e : t' = t
      · subst e
        rw [upd_same] at hb
        cases hb
        have := h.room _ _ _ hc
        simp only [List.length_cons] at this
        omega
      · rw [upd_ne _ _ e] at hb; exact h.room _ _ _ hb
    · intro t' w hw
      rw [q'] at hw
      by_cases e : t' = t
      · rw [if_pos e] at hw; subst e; exact h.typed _ w (by rw [hq]; simp [hw])
      · rw [if_neg e] at hw; exact h.typed _ w hw
  | add _ _ v ch hp hsend =>
    obtain ⟨g1, g2, g3⟩ := grown_spec (s.chans (ty v)) (fun b c e => h.room _ b c e)
    rw [queue_getD] at g1
    rw [send, if_pos g2] at hsend
    cases hsend
    have q' : ∀ t', ({ chans := upd s.chans (ty v) (some ((grown (s.chans (ty v))).1 ++ [v], (grown (s.chans (ty v))).2)), pc := upd s.pc i .idle, added := s.added ++ [v], got := s.got } : St T V).queue t' =
        if t' = ty v then s.queue t' ++ [v] else s.queue t' := by
      intro t'
      unfold St.queue
      simp only
      by_cases e : t' = ty v
      · subst e; rw [upd_same]; simp only [if_true]; rw [g1]; rfl
      · rw [upd_ne _ _ e]; simp [e]
    refine ⟨?_, ?_, excl_upd h i _ (by simp [Pc.writes]) (by simp [Pc.reads]), ?_⟩
    · intro t'
      rw [q']
      simp only [List.filter_append]
      rw [h.fifo t']
      by_cases e : t' = ty v
      · subst e; simp
      · rw [if_neg e]; simp [Ne.symm e]
    · intro t' b c hb
      simp only at hb
      by_cases e : t' = ty v
      · subst e
        rw [upd_same] at hb
        cases hb
        simp only [List.length_append, List.length_cons, List.length_nil]
        omega
      · rw [upd_ne _ _ e] at hb; exact h.room _ _ _ hb
    · intro t' w hw
      rw [q'] at hw
      by_cases e : t' = ty v
      · rw [if_pos e] at hw
        rcases List.mem_append.1 hw with x | x
        · exact h.typed _ w x
        · simp at x; subst x; exact e.symm
      · rw [if_neg e] at hw; exact h.typed _ w hw

theorem inv_init (ty : V → T) : Inv ty St.init :=
  ⟨by intro t; simp [St.init, St.queue], by intro t b c h; simp [St.init] at h,
    by intro i j _ h; exact absurd h (by simp [St.init, Pc.writes]), by intro t v h; simp [St.init, St.queue] at h⟩

theorem inv_reach {ty : V → T} {done : Bool} {s₀ s : St T V} (h : Inv ty s₀) (hr : Reach ty done s₀ s) : Inv ty s := by
  induction hr with
  | refl => exact h
  | step _ hs ih => exact inv_step ih hs

/-- C39: whatever the goroutines do, the values got of a type are the first of those added, in the same
order, each once; the others are still in the queue, and nothing is lost. -/
theorem fifo (ty : V → T) (done : Bool) (s : St T V) (h : Reach ty done St.init s) (t : T) :
    s.added.filter (fun v => ty v = t) = (s.got.filter (fun p => p.1 = t)).map Prod.snd ++ s.queue t :=
  (inv_reach (inv_init ty) h).fifo t

/-- C39: only values of its own type come out of a queue, so that the type assertion succeeds. -/
theorem typed (ty : V → T) (done : Bool) (s : St T V) (h : Reach ty done St.init s) (p : T × V) (hp : p ∈ s.got) :
    ty p.2 = p.1 := by
  have := fifo ty done s h p.1
  have hm : p.2 ∈ s.added.filter (fun v => ty v = p.1) := by
    rw [this]
    refine List.mem_append_left _ (List.mem_map.2 ⟨p, List.mem_filter.2 ⟨hp, by simp⟩, rfl⟩)
  simpa using (List.mem_filter.1 hm).2

/-- C39: `ContextAdd` never waits once it has the lock. -/
theorem add_never_blocks (ty : V → T) (done : Bool) (s : St T V) (h : Reach ty done St.init s) (i : Nat) (v : V)
    (hp : s.pc i = .locked v) : ∃ s', Step ty done i s s' ∧ s'.pc i = .idle ∧ s'.added = s.added ++ [v] := by
  obtain ⟨g1, g2, g3⟩ := grown_spec (s.chans (ty v)) (fun b c e => (inv_reach (inv_init ty) h).room _ b c e)
  exact ⟨_, .add s i v _ hp (by rw [send, if_pos g2]), by simp [upd_same], rfl⟩

/-! ## Does `ContextGet` wait? -/

/-- At most one goroutine gets at a time. -/
def OneGetter (s : St T V) : Prop := ∀ i j, (s.pc i).reads → (s.pc j).reads → i = j

/-- Runs in which never more than one goroutine is getting. -/
inductive Alone (ty : V → T) (done : Bool) : St T V → Prop
  | init : Alone ty done St.init
  | step {s s' : St T V} {i : Nat} : Alone ty done s → Step ty done i s s' → OneGetter s' → Alone ty done s'

theorem alone_reach {ty : V → T} {done : Bool} {s : St T V} (h : Alone ty done s) : Reach ty done St.init s := by
  induction h with
  | init => exact .refl
  | step _ hs _ ih => exact .step ih hs

theorem alone_one {ty : V → T} {done : Bool} {s : St T V} (h : Alone ty done s) : OneGetter s := by
  cases h with
  | init => intro i j x; exact absurd x (by simp [St.init, Pc.reads])
  | step _ _ h => exact h

theorem alone_waiting {ty : V → T} {done : Bool} {s : St T V} (h : Alone ty done s) :
    ∀ i t, s.pc i = .waiting t → ∃ v buf cap, s.chans t = some (v :: buf, cap) := by
  induction h with
  | init => intro i t x; cases x
  | @step s s' j ha hs ho ih =>
    have hinv := inv_reach (inv_init ty) (alone_reach ha)
    have hone := alone_one ha
    intro i t hi
    by_cases hij : i = j
    · subst hij
      cases hs with
      | some _ _ t' v buf cap hp hc =>
        simp only [upd_same, Pc.waiting.injEq] at hi
        subst hi
        exact ⟨v, buf, cap, hc⟩
      | callAdd => simp [upd_same] at hi
      | lock => simp [upd_same] at hi
      | add => simp [upd_same] at hi
      | callGet => simp [upd_same] at hi
      | rlock => simp [upd_same] at hi
      | none => simp [upd_same] at hi
      | receive => simp [upd_same] at hi
      | cancel => simp [upd_same] at hi
    · have hr : (s'.pc i).reads := by rw [hi]; trivial
      cases hs with
      | callAdd _ _ v hp => simp only [upd_ne _ _ hij] at hi; exact ih i t hi
      | lock _ _ v hp hl =>
        simp only [upd_ne _ _ hij] at hi
        exact absurd (by rw [hi]; trivial) (hl i).1
      | add _ _ v ch hp hsend =>
        simp only [upd_ne _ _ hij] at hi
        exact absurd (by rw [hi]; trivial) (hinv.excl j i (Ne.symm hij) (by rw [hp]; trivial)).1
      | callGet _ _ t' hp => simp only [upd_ne _ _ hij] at hi; exact ih i t hi
      | rlock _ _ t' hp hl =>
        exact absurd (ho i j hr (by simp [upd_same, Pc.reads])) hij
      | some _ _ t' v buf cap hp hc =>
        exact absurd (ho i j hr (by simp [upd_same, Pc.reads])) hij
      | none _ _ t' hp hn => simp only [upd_ne _ _ hij] at hi; exact ih i t hi
      | cancel _ _ t' hp hd => simp only [upd_ne _ _ hij] at hi; exact ih i t hi
      | receive _ _ t' v buf cap hp hc =>
        simp only [upd_ne _ _ hij] at hi
        exact absurd (hone i j (by rw [hi]; trivial) (by rw [hp]; trivial)) hij

/-- C39, partial: as long as never two goroutines get at the same time, getting does not wait for
anything once it has the lock, and the first value of the queue is what it gets. -/
theorem get_never_waits_partial (ty : V → T) (done : Bool) (s : St T V) (h : Alone ty done s) (i : Nat) (t : T)
    (hp : s.pc i = .waiting t) : ∃ v s', Step ty done i s s' ∧ s'.pc i = .idle ∧ s'.got = s.got ++ [(t, v)] ∧
      (s.queue t).head? = some v := by
  obtain ⟨v, buf, cap, hc⟩ := alone_waiting h i t hp
  exact ⟨v, _, .receive s i t v buf cap hp hc, by simp [upd_same], rfl, by simp [St.queue, hc]⟩

/-- After the first look, a goroutine always goes on. -/
theorem look_never_waits (ty : V → T) (done : Bool) (s : St T V) (i : Nat) (t : T) (hp : s.pc i = .looking t) :
    ∃ s', Step ty done i s s' := by
  by_cases h : ∃ v buf cap, s.chans t = some (v :: buf, cap)
  · obtain ⟨v, buf, cap, hc⟩ := h
    exact ⟨_, .some s i t v buf cap hp hc⟩
  · exact ⟨_, .none s i t hp fun v b c e => h ⟨v, b, c, e⟩⟩

theorem stuck_step {ty : V → T} {i : Nat} {t : T} {s s' : St T V} {j : Nat}
    (hp : s.pc i = .waiting t) (hq : s.queue t = []) (hinv : Inv ty s) (hs : Step ty false j s s') :
    s'.pc i = .waiting t ∧ s'.queue t = [] ∧ s'.added = s.added := by
  have hno : ∀ v buf cap, s.chans t ≠ some (v :: buf, cap) := by
    intro v buf cap e
    simp [St.queue, e] at hq
  by_cases hij : i = j
  · subst hij
    cases hs with
    | receive _ _ t' v buf cap hp' hc =>
      rw [hp] at hp'
      cases hp'
      exact absurd hc (hno _ _ _)
    | cancel _ _ _ _ hd => cases hd
    | callAdd _ _ _ h => rw [hp] at h; cases h
    | lock _ _ _ h => rw [hp] at h; cases h
    | add _ _ _ _ h => rw [hp] at h; cases h
    | callGet _ _ _ h => rw [hp] at h; cases h
    | rlock _ _ _ h => rw [hp] at h; cases h
    | some _ _ _ _ _ _ h => rw [hp] at h; cases h
    | none _ _ _ h => rw [hp] at h; cases h
  · cases hs with
    | callAdd => exact ⟨by simp only [upd_ne _ _ hij]; exact hp, hq, rfl⟩
    | lock _ _ v _ hl => exact absurd (by rw [hp]; trivial) (hl i).1
    | add _ _ v ch h => exact absurd (by rw [hp]; trivial) (hinv.excl j i (Ne.symm hij) (by rw [h]; trivial)).1
    | callGet => exact ⟨by simp only [upd_ne _ _ hij]; exact hp, hq, rfl⟩
    | rlock => exact ⟨by simp only [upd_ne _ _ hij]; exact hp, hq, rfl⟩
    | some => exact ⟨by simp only [upd_ne _ _ hij]; exact hp, hq, rfl⟩
    | none => exact ⟨by simp only [upd_ne _ _ hij]; exact hp, hq, rfl⟩
    | cancel _ _ _ _ hd => cases hd
    | receive _ _ t' v buf cap h hc =>
      refine ⟨by simp only [upd_ne _ _ hij]; exact hp, ?_, rfl⟩
      by_cases e : t = t'
      · subst e; exact absurd hc (hno _ _ _)
      · unfold St.queue
        simp only [upd_ne _ _ e]
        exact hq

/-- Once a goroutine waits at an empty queue it waits for ever, and nothing is added any more. -/
theorem stuck_forever (ty : V → T) (i : Nat) (t : T) (s s' : St T V) (h : Reach ty false St.init s)
    (hp : s.pc i = .waiting t) (hq : s.queue t = []) (hr : Reach ty false s s') :
    s'.pc i = .waiting t ∧ s'.added = s.added := by
  have : Inv ty s' ∧ s'.pc i = .waiting t ∧ s'.queue t = [] ∧ s'.added = s.added := by
    induction hr with
    | refl => exact ⟨inv_reach (inv_init ty) h, hp, hq, rfl⟩
    | step _ hs ih =>
      obtain ⟨a, b, c, d⟩ := ih
      obtain ⟨b', c', d'⟩ := stuck_step b c a hs
      exact ⟨inv_step a hs, b', c', d'.trans d⟩
  exact ⟨this.2.1, this.2.2.2⟩

/-- C39 fails: two goroutines that get the only value at the same time. One of them waits for ever, as
long as the context is not done, and nobody can add anything for ever. -/
theorem get_fails (ty : V → T) (v : V) : ∃ s : St T V, Reach ty false St.init s ∧
    s.pc 1 = .waiting (ty v) ∧ s.added = [v] ∧ s.got = [(ty v, v)] ∧
    ∀ s', Reach ty false s s' → s'.pc 1 = .waiting (ty v) ∧ s'.added = [v] := by
  let t := ty v
  have r0 : Reach ty false (St.init : St T V) _ := .step .refl (.callAdd St.init 0 v rfl)
  have r1 := Reach.step r0 (.lock _ 0 v (by simp [upd]) (by
    intro j
    by_cases e : j = 0
    · subst e; simp [upd, Pc.reads, Pc.writes]
    · simp [upd, e, St.init, Pc.reads, Pc.writes]))
  have r2 := Reach.step r1 (.add _ 0 v ([v], 1) (by simp [upd]) rfl)
  have r3 := Reach.step r2 (.callGet _ 0 t (by simp [upd]))
  have r4 := Reach.step r3 (.callGet _ 1 t (by simp [upd, St.init]))
  have nw : ∀ (p q : Pc T V), ¬ p.writes → ¬ q.writes → ∀ j, ¬ (upd (upd (fun _ => Pc.idle) 0 p) 1 q j : Pc T V).writes := by
    intro p q hp hq j
    by_cases e1 : j = 1
    · subst e1; rw [upd_same]; exact hq
    · rw [upd_ne _ _ e1]
      by_cases e0 : j = 0
      · subst e0; rw [upd_same]; exact hp
      · rw [upd_ne _ _ e0]; simp [Pc.writes]
  have r5 := Reach.step r4 (.rlock _ 0 t (by simp [upd]) (by
    intro j
    by_cases e1 : j = 1
    · subst e1; simp [upd, Pc.writes]
    · by_cases e0 : j = 0
      · subst e0; simp [upd, Pc.writes]
      · simp [upd, e0, e1, St.init, Pc.writes]))
  have r6 := Reach.step r5 (.rlock _ 1 t (by simp [upd]) (by
    intro j
    by_cases e1 : j = 1
    · subst e1; simp [upd, Pc.writes]
    · by_cases e0 : j = 0
      · subst e0; simp [upd, Pc.writes]
      · simp [upd, e0, e1, St.init, Pc.writes]))
  have r7 := Reach.step r6 (.some _ 0 t v [] 1 (by simp [upd]) (by simp [upd, t]))
  have r8 := Reach.step r7 (.some _ 1 t v [] 1 (by simp [upd]) (by simp [upd, t]))
  have r9 := Reach.step r8 (.receive _ 0 t v [] 1 (by simp [upd]) (by simp [upd, t]))
  refine ⟨_, r9, by simp [upd, t], by simp [St.init], by simp [St.init, t], ?_⟩
  intro s' hr
  obtain ⟨a, b⟩ := stuck_forever ty 1 t _ s' r9 (by simp [upd]) (by simp [St.queue, upd_same]) hr
  exact ⟨a, by rw [b]; simp [St.init]⟩

/-- C39: the hypotheses of the partial theorem are met by a run that adds a value and gets it. -/
example (ty : V → T) (v : V) : ∃ s : St T V, Alone ty false s ∧ s.pc 0 = .waiting (ty v) := by
  have one : ∀ (p : Pc T V) (f : Nat → Pc T V) (s : St T V), (∀ j, f j = .idle ∨ j = 0) →
      s.pc = upd f 0 p → OneGetter s := by
    intro p f s hf hs i j hi hj
    have z : ∀ k, (s.pc k).reads → k = 0 := by
      intro k hk
      by_cases e : k = 0
      · exact e
      · rw [hs, upd_ne _ _ e] at hk
        rcases hf k with x | x
        · rw [x] at hk; exact hk.elim
        · exact x
    rw [z i hi, z j hj]
  have up : ∀ (p : Pc T V) (f : Nat → Pc T V), (∀ j, f j = .idle ∨ j = 0) → ∀ j, upd f 0 p j = .idle ∨ j = 0 := by
    intro p f hf j
    by_cases e : j = 0
    · exact Or.inr e
    · rw [upd_ne _ _ e]; exact hf j
  have f0 : ∀ j, (St.init : St T V).pc j = .idle ∨ j = 0 := fun _ => Or.inl rfl
  have r0 : Alone ty false (_ : St T V) := .step .init (.callAdd St.init 0 v rfl) (one _ _ _ f0 rfl)
  have f1 := up (.adding v) _ f0
  have r1 := Alone.step r0 (.lock _ 0 v (by simp [upd]) (by
    intro j
    by_cases e : j = 0
    · subst e; simp [upd, Pc.reads, Pc.writes]
    · simp [upd, e, St.init, Pc.reads, Pc.writes])) (one _ _ _ f1 rfl)
  have f2 := up (.locked v) _ f1
  have r2 := Alone.step r1 (.add _ 0 v ([v], 1) (by simp [upd]) rfl) (one _ _ _ f2 rfl)
  have f3 := up .idle _ f2
  have r3 := Alone.step r2 (.callGet _ 0 (ty v) (by simp [upd])) (one _ _ _ f3 rfl)
  have f4 := up (.getting (ty v)) _ f3
  have r4 := Alone.step r3 (.rlock _ 0 (ty v) (by simp [upd]) (by
    intro j
    by_cases e0 : j = 0
    · subst e0; simp [upd, Pc.writes]
    · simp [upd, e0, St.init, Pc.writes])) (one _ _ _ f4 rfl)
  have f5 := up (.looking (ty v)) _ f4
  have r5 := Alone.step r4 (.some _ 0 (ty v) v [] 1 (by simp [upd]) (by simp [upd])) (one _ _ _ f5 rfl)
  exact ⟨_, r5, by simp [upd]⟩

/-- C39 fails: without an x-ray context, and with one that is switched off, getting panics (and having
is false). -/
theorem get_panics (zero : V) (c : Ctx (List V)) : getAlone zero c = none ↔ c = .without ∨ c = .off := by
  cases c with
  | without => simp [getAlone]
  | off => simp [getAlone]
  | on q => cases q <;> simp [getAlone]

/-- C39: with a context, getting alone gives the first value, or the zero value if there is none, and
having says which. -/
theorem get_alone (zero : V) (q : List V) : getAlone zero (.on q) = some (q.head?.getD zero) ∧
    (hasAlone (.on q) = true ↔ q ≠ []) := by
  cases q <;> simp [getAlone, hasAlone, Ctx.set?]

/-! ## C87 -/

/-- C87, partial: a reader that ends without an error is read just as without the wrapper, and `Bytes`
are its bytes if x-ray is on. -/
theorem reader_partial {S : Type} (text : List UInt8) (c : Ctx S) (r : Source) (h : r.err = none) :
    (newReader text c r).read = r ∧ (∀ s, c = .on s → (newReader text c r).bytes = r.bytes) := by
  rcases r with ⟨b, e⟩
  simp only at h
  subst h
  cases c <;> simp [newReader, Ctx.set?]

/-- C87: with x-ray off nothing changes, error or not. -/
theorem reader_off {S : Type} (text : List UInt8) (c : Ctx S) (r : Source) (h : c = .without ∨ c = .off) :
    (newReader text c r).read = r := by
  rcases h with rfl | rfl <;> rfl

/-- C87 fails: with x-ray on, the bytes before an error are lost, whatever they are. -/
theorem reader_fails {S : Type} (text : List UInt8) (s : S) (b : List UInt8) (e : Nat) :
    (newReader text (.on s) ⟨b, some e⟩).read = ⟨[], some e⟩ := rfl

/-- C87: whatever is written to a writer, its `Bytes` are all of it in order, and the underlying writer
gets the same writes and its answers are passed on. -/
theorem writer_spec {σ : Type} (w : σ → List UInt8 → σ × Nat × Option Nat) (s : WState σ) (ps : List (List UInt8)) :
    (ps.foldl (fun s p => (write w s p).1) s).buffer = s.buffer ++ ps.flatten ∧
    (ps.foldl (fun s p => (write w s p).1) s).under = ps.foldl (fun u p => (w u p).1) s.under ∧
    (∀ p, (write w s p).2 = (w s.under p).2) := by
  refine ⟨?_, ?_, fun _ => rfl⟩
  · induction ps generalizing s with
    | nil => simp
    | cons p ps ih => rw [List.foldl_cons, ih]; simp [write]
  · induction ps generalizing s with
    | nil => rfl
    | cons p ps ih => rw [List.foldl_cons, ih]; rfl

end Verif.Xray
