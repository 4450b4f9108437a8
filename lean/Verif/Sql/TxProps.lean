import Verif.Sql.TxSpec

/-! C211: transactions. -/
namespace Verif.Sql.Tx

variable {σ α : Type}

/-! ### On a database -/

theorem body_closed (p : Prog σ α) : ∀ (d : DbTx σ), d.isOpen = false →
    (p.alone d.view).2.1 = [] ∧ body p d = (d, .done (p.alone d.view).2.2) ∧ (p.alone d.view).1 = d.view ∨
    (p.alone d.view).2.1 ≠ [] ∧ body p d = (d, .panics) := by
  induction p with
  | ret e => intro d h; exact .inl ⟨rfl, rfl, rfl⟩
  | call job next ih =>
    intro d h
    refine .inr ⟨by simp [Prog.alone], ?_⟩
    rw [body, send, h]
    rfl
  | nest p next ihp ihn =>
    intro d h
    rcases ihp d h with ⟨a1, a2, a3⟩ | ⟨a1, a2⟩
    · rcases ihn (p.alone d.view).2.2 d h with ⟨b1, b2, b3⟩ | ⟨b1, b2⟩
      · refine .inl ⟨?_, ?_, ?_⟩
        · simp only [Prog.alone]; rw [a1, a3, b1]; rfl
        · simp only [Prog.alone]; rw [body, a2]; dsimp only; rw [b2, a3]
        · simp only [Prog.alone]; rw [a3, b3]
      · refine .inr ⟨?_, ?_⟩
        · simp only [Prog.alone]; rw [a1, a3]; simpa using b1
        · rw [body, a2]; dsimp only; rw [b2]
    · refine .inr ⟨?_, ?_⟩
      · simp only [Prog.alone]; simp [a1]
      · rw [body, a2]

theorem body_open (p : Prog σ α) : ∀ (s : σ),
    (p.alone s).2.1 = [] ∧ body p ⟨s, s, true⟩ = (⟨s, s, true⟩, .done (p.alone s).2.2) ∧ (p.alone s).1 = s ∨
    (p.alone s).2.1.length = 1 ∧ body p ⟨s, s, true⟩ = (⟨(p.alone s).1, (p.alone s).1, false⟩, .done (p.alone s).2.2) ∨
    1 < (p.alone s).2.1.length ∧ (body p ⟨s, s, true⟩).2 = .panics := by
  induction p with
  | ret e => intro s; exact .inl ⟨rfl, rfl, rfl⟩
  | call job next ih =>
    intro s
    right
    rcases body_closed (next (job s).2) ⟨(job s).1, (job s).1, false⟩ rfl with ⟨a1, a2, a3⟩ | ⟨a1, a2⟩
    · left
      dsimp only at a1 a2 a3
      simp only [Prog.alone]
      refine ⟨by rw [a1]; rfl, ?_⟩
      rw [body, send, if_pos rfl]; dsimp only; rw [a2, a3]
    · right
      dsimp only at a1 a2
      simp only [Prog.alone]
      refine ⟨?_, ?_⟩
      · have := List.length_pos_iff.mpr a1
        simp only [List.length_cons]; omega
      · rw [body, send, if_pos rfl]; dsimp only; rw [a2]
  | nest p next ihp ihn =>
    intro s
    rcases ihp s with ⟨a1, a2, a3⟩ | ⟨a1, a2⟩ | ⟨a1, a2⟩
    · have hb : body (.nest p next) ⟨s, s, true⟩ = body (next (p.alone s).2.2) ⟨s, s, true⟩ := by rw [body, a2]
      rw [hb]
      simp only [Prog.alone]
      rw [a1, a3]
      exact ihn _ s
    · have hb : body (.nest p next) ⟨s, s, true⟩ = body (next (p.alone s).2.2) ⟨(p.alone s).1, (p.alone s).1, false⟩ := by rw [body, a2]
      rw [hb]
      simp only [Prog.alone, List.length_append]
      rcases body_closed (next (p.alone s).2.2) ⟨(p.alone s).1, (p.alone s).1, false⟩ rfl with ⟨b1, b2, b3⟩ | ⟨b1, b2⟩
      · dsimp only at b1 b2 b3
        refine .inr (.inl ⟨by rw [a1, b1]; rfl, by rw [b2, b3]⟩)
      · dsimp only at b1 b2
        refine .inr (.inr ⟨?_, by rw [b2]⟩)
        have := List.length_pos_iff.mpr b1
        omega
    · refine .inr (.inr ⟨?_, ?_⟩)
      · simp only [Prog.alone, List.length_append]; omega
      · rw [body]
        generalize hr : body p ⟨s, s, true⟩ = r at a2
        obtain ⟨d, e⟩ := r
        dsimp only at a2
        subst a2
        rfl

/-- **C211 on a database, exactly.** A transaction does what it should just when it makes one call and then returns no error,
or an error after a call that changed nothing. -/
theorem db_ok_iff (p : Prog σ α) (s : σ) : DbOk p s ↔ (p.alone s).2.1.length = 1 ∧ ((p.alone s).2.2 = false ∨ (p.alone s).1 = s) := by
  unfold DbOk manageDb Prog.after
  rcases body_open p s with ⟨a1, a2, a3⟩ | ⟨a1, a2⟩ | ⟨a1, a2⟩
  · rw [a2, a1]; simp
  · rw [a2, a1]
    cases he : (p.alone s).2.2 <;> simp
  · rw [a2]
    constructor
    · rintro ⟨h, _⟩; cases h
    · rintro ⟨h, _⟩; omega

/-- **C211 (partial).** On a database, a transaction of one call that returns no error is committed, whatever the call is and
however `Manage` is nested around it. -/
theorem db_one_call_partial (p : Prog σ α) (s : σ) (h1 : (p.alone s).2.1.length = 1) (h2 : (p.alone s).2.2 = false) : DbOk p s :=
  (db_ok_iff p s).mpr ⟨h1, .inl h2⟩

/-- Adding a number to an account, which answers the balance. -/
def deposit (account : Bool) (n : Int) (s : Int × Int) : (Int × Int) × Int :=
  if account then ((s.1 + n, s.2), s.1 + n) else ((s.1, s.2 + n), s.2 + n)

/-- A deposit inside a nested `Manage`. -/
def one : Prog (Int × Int) Int := .nest (.call (deposit true 5) fun _ => .ret false) fun e => .ret e

example : (one.alone (0, 0)).2.1.length = 1 ∧ (one.alone (0, 0)).2.2 = false := by decide +kernel

/-- Moving money from one account to the other. -/
def transfer : Prog (Int × Int) Int := .call (deposit true (-5)) fun _ => .call (deposit false 5) fun _ => .ret false

/-- **C211**, the full claim: every transaction does what it should. -/
def AlwaysOk : Prop := ∀ (σ α : Type) (p : Prog σ α) (s : σ), DbOk p s

/-- **C211 fails** for a transfer: the first call commits the transaction, the second panics, and the money is gone. -/
theorem db_transfer_fails : ¬ AlwaysOk ∧ (manageDb transfer (10, 0)).2 = .panics ∧ (manageDb transfer (10, 0)).1.committed = (5, 0) :=
  ⟨fun h => by have := (db_ok_iff _ _).mp (h _ _ transfer (10, 0)); revert this; decide +kernel, by decide +kernel, by decide +kernel⟩

/-- **C211 fails** for an error: whatever the call did is committed although the function returns an error. -/
theorem db_error_fails (job : σ → σ × α) (s : σ) :
    manageDb (.call job fun _ => .ret true) s = (⟨(job s).1, (job s).1, false⟩, .done true) := rfl

/-- **C211 fails** for a transaction without a call: it is never ended. -/
theorem db_empty_fails (e : Bool) (s : σ) : (manageDb (.ret e : Prog σ α) s).1.isOpen = true := rfl

/-! ### In memory -/

theorem memBody_eq (p : Prog σ α) : ∀ s, (¬ p.Nests s ∧ memBody p s = ((p.alone s).1, .done (p.alone s).2.2)) ∨ (p.Nests s ∧ (memBody p s).2 = .hangs) := by
  induction p with
  | ret e => intro s; exact .inl ⟨fun h => h, rfl⟩
  | call job next ih =>
    intro s
    rw [memBody, Prog.Nests]
    simp only [Prog.alone]
    exact ih _ _
  | nest p next _ _ => intro s; exact .inr ⟨trivial, rfl⟩

/-- **C211 in memory, exactly.** A transaction does what it should just when it calls no other `Manage`, and returns no error
or has changed nothing. -/
theorem mem_ok_iff (p : Prog σ α) (s : σ) : MemOk p s ↔ ¬ p.Nests s ∧ ((p.alone s).2.2 = false ∨ (p.alone s).1 = s) := by
  unfold MemOk manageMem Prog.after
  rcases memBody_eq p s with ⟨a1, a2⟩ | ⟨a1, a2⟩
  · rw [a2]
    cases he : (p.alone s).2.2 <;> simp [a1]
  · rw [a2]
    constructor
    · rintro ⟨h, _⟩; cases h
    · rintro ⟨h, _⟩; exact absurd a1 h

/-- **C211 (partial).** In memory, a transaction that calls no other `Manage` and returns no error makes all of its changes. -/
theorem mem_partial (p : Prog σ α) (s : σ) (h1 : ¬ p.Nests s) (h2 : (p.alone s).2.2 = false) : MemOk p s := (mem_ok_iff p s).mpr ⟨h1, .inl h2⟩

example : ¬ transfer.Nests (10, 0) ∧ (transfer.alone (10, 0)).2.2 = false ∧ (transfer.alone (10, 0)).1 = (5, 5) :=
  ⟨by simp [transfer, Prog.Nests], by decide +kernel, by decide +kernel⟩

/-- **C211 fails** in memory for an error: the changes stay. -/
theorem mem_error_fails : ¬ MemOk (.call (deposit true 5) fun _ => .ret true) (0, 0) := by
  rw [mem_ok_iff]
  rintro ⟨_, h⟩
  revert h
  decide +kernel

/-- **C211 fails** in memory for a `Manage` inside another, of any map: it hangs, although on a database it would not. -/
theorem mem_nest_fails (p : Prog σ α) (next : Bool → Prog σ α) (s : σ) : (manageMem (.nest p next) s).2 = .hangs := rfl

/-! ### Transactions of several goroutines -/

/-- What the steps so far have done: the transactions that have ended, one after another in the order they began, and then
the beginning of the one that holds the lock. -/
def Inv (s : σ) (bs : List (Nat × Prog σ α)) (es : List (Nat × List α × Bool)) (m : Moment σ α) : Prop :=
  match m.lock with
  | none => serial bs s = (m.mem, es)
  | some (g, rest, as) => ∃ ps p, bs = ps ++ [(g, p)] ∧ (serial ps s).2 = es ∧ rest.Flat ∧
      p.alone (serial ps s).1 = ((rest.alone m.mem).1, as ++ (rest.alone m.mem).2.1, (rest.alone m.mem).2.2)

theorem serial_append (ps qs : List (Nat × Prog σ α)) : ∀ s, serial (ps ++ qs) s =
    ((serial qs (serial ps s).1).1, (serial ps s).2 ++ (serial qs (serial ps s).1).2) := by
  induction ps with
  | nil => intro s; simp [serial]
  | cons x ps ih => obtain ⟨g, p⟩ := x; intro s; simp only [List.cons_append, serial]; rw [ih]

/-- Only transactions are left to do. -/
def OnlyTx (m : Moment σ α) : Prop := ∀ g, ∀ t ∈ m.todo g, ∃ p, t = .tx p ∧ p.Flat

theorem inv_step {s : σ} {bs es} {m m' : Moment σ α} {b e} (h : Inv s bs es m) (ho : OnlyTx m) (hs : Step m b e m') :
    Inv s (bs ++ b.toList) (es ++ e.toList) m' ∧ OnlyTx m' := by
  cases hs with
  | @lock g p ts h1 h2 =>
    rw [Inv, h1] at h
    dsimp only at h
    have hp : p.Flat := by
      obtain ⟨q, h3, h4⟩ := ho g (.tx p) (by rw [h2]; simp)
      cases h3; exact h4
    refine ⟨?_, ?_⟩
    · rw [Inv]
      exact ⟨bs, p, rfl, by rw [h]; simp, hp, by rw [h]; simp⟩
    · intro g' t ht
      dsimp only at ht
      split at ht
      · rename_i hg; subst hg; exact ho g' t (by rw [h2]; exact List.mem_cons_of_mem _ ht)
      · exact ho g' t ht
  | @call g job next as h1 =>
    rw [Inv, h1] at h
    obtain ⟨ps, p, a1, a2, a3, a4⟩ := h
    refine ⟨?_, ho⟩
    rw [Inv]
    refine ⟨ps, p, by simp [a1], by simp [a2], a3 _, ?_⟩
    rw [a4]
    simp [Prog.alone]
  | @unlock g e as h1 =>
    rw [Inv, h1] at h
    obtain ⟨ps, p, a1, a2, a3, a4⟩ := h
    refine ⟨?_, ho⟩
    rw [Inv]
    dsimp only
    rw [Option.toList_none, List.append_nil, a1, serial_append]
    simp only [serial]
    rw [a4, a2]
    simp [Prog.alone]
  | @outside g job ts h1 h2 =>
    obtain ⟨q, h3, _⟩ := ho g (.outside job) (by rw [h1]; simp)
    cases h3

theorem inv_steps {m m' : Moment σ α} {bs es} (h0 : m.lock = none) (ho : OnlyTx m) (hs : Steps m bs es m') : Inv m.mem bs es m' ∧ OnlyTx m' := by
  induction hs with
  | refl => exact ⟨by rw [Inv, h0]; rfl, ho⟩
  | step _ h ih => exact inv_step ih.1 ih.2 h

theorem steps_todo {m m' : Moment σ α} {bs es} (hs : Steps m bs es m') : ∀ g, txs (m.todo g) = (bs.filter (·.1 == g)).map (·.2) ++ txs (m'.todo g) := by
  induction hs with
  | refl => intro g; simp
  | step _ h ih =>
    intro g
    rw [ih g]
    cases h with
    | @lock g' p ts h1 h2 =>
      by_cases hg : g = g'
      · subst hg
        rw [h2]
        simp [txs, List.filter_append]
      · have : (g' == g) = false := by simp [Ne.symm hg]
        simp [List.filter_append, hg, this]
    | call h1 => simp
    | unlock h1 => simp
    | @outside g' job ts h1 h2 =>
      by_cases hg : g = g'
      · subst hg; rw [h1]; simp [txs]
      · simp [hg]

/-- **C211 (partial), isolation in memory.** If goroutines touch the maps only inside transactions that call no other
`Manage`, then whenever the lock is free the maps are as if whole transactions had been made one after another, each
goroutine's in its own order, and every call has answered as it would have then. -/
theorem isolated_partial {m m' : Moment σ α} {bs es} (h0 : m.lock = none) (ho : ∀ g, ∀ t ∈ m.todo g, ∃ p, t = .tx p ∧ p.Flat)
    (hs : Steps m bs es m') (hf : m'.lock = none) :
    serial bs m.mem = (m'.mem, es) ∧ ∀ g, txs (m.todo g) = (bs.filter (·.1 == g)).map (·.2) ++ txs (m'.todo g) := by
  obtain ⟨h, _⟩ := inv_steps h0 ho hs
  rw [Inv, hf] at h
  exact ⟨h, steps_todo hs⟩

/-- **C211 (partial), progress in memory.** As long as something is left to do, some goroutine can go on. -/
theorem progress_partial {m m' : Moment σ α} {bs es} (h0 : m.lock = none) (ho : ∀ g, ∀ t ∈ m.todo g, ∃ p, t = .tx p ∧ p.Flat)
    (hs : Steps m bs es m') (hleft : m'.lock ≠ none ∨ ∃ g, m'.todo g ≠ []) : ∃ b e m'', Step m' b e m'' := by
  obtain ⟨h, ho'⟩ := inv_steps h0 ho hs
  cases hl : m'.lock with
  | some l =>
    obtain ⟨g, rest, as⟩ := l
    rw [Inv, hl] at h
    obtain ⟨_, _, _, _, hflat, _⟩ := h
    cases rest with
    | ret e => exact ⟨_, _, _, .unlock hl⟩
    | call job next => exact ⟨_, _, _, .call hl⟩
    | nest p next => exact absurd hflat (by simp [Prog.Flat])
  | none =>
    rcases hleft with hleft | ⟨g, hg⟩
    · exact absurd hl hleft
    · cases ht : m'.todo g with
      | nil => exact absurd ht hg
      | cons t ts =>
        obtain ⟨p, rfl, _⟩ := ho' g t (by rw [ht]; simp)
        exact ⟨_, _, _, .lock hl ht⟩

/-- Two goroutines that both transfer. -/
def twoTransfers : Moment (Int × Int) Int := ⟨(10, 0), none, fun g => if g < 2 then [.tx transfer] else []⟩

example : twoTransfers.lock = none ∧ (∀ g, ∀ t ∈ twoTransfers.todo g, ∃ p, t = .tx p ∧ p.Flat) ∧ ∃ m' bs es, Steps twoTransfers bs es m' ∧
    m'.lock = none ∧ es = [(1, [5, 5], false)] := by
  refine ⟨rfl, ?_, ?_⟩
  · intro g t ht
    simp only [twoTransfers] at ht
    split at ht
    · simp only [List.mem_singleton] at ht
      exact ⟨transfer, ht, by simp [transfer, Prog.Flat]⟩
    · cases ht
  · exact ⟨_, _, _, .step (.step (.step (.step (.refl _) (.lock (g := 1) (p := transfer) (ts := []) rfl rfl)) (.call rfl)) (.call rfl)) (.unlock rfl), rfl, by decide +kernel⟩

/-- Writing the total into both accounts. -/
def total (s : Int × Int) : (Int × Int) × Int := ((s.1 + s.2, s.1 + s.2), 0)

/-- **C211 fails** for calls outside a transaction, which do not wait for the lock: in the middle of a transfer they see that
money is missing, and what is left is not what any order of the two leaves. -/
theorem isolated_fails : ∃ (m m' : Moment (Int × Int) Int) (bs : List (Nat × Prog (Int × Int) Int)) (es : List (Nat × List Int × Bool)),
    m = ⟨(10, 0), none, fun g => if g = 0 then [.tx transfer] else if g = 1 then [.outside total] else []⟩ ∧
    Steps m bs es m' ∧ m'.lock = none ∧ (∀ g, m'.todo g = []) ∧ m'.mem = (5, 10) ∧
    (total (transfer.alone (10, 0)).1).1 = (10, 10) ∧ (transfer.alone (total (10, 0)).1).1 = (5, 15) := by
  refine ⟨_, _, _, _, rfl, .step (.step (.step (.step (.step (.refl _) (.lock (g := 0) (p := transfer) (ts := []) rfl rfl)) (.call rfl))
    (.outside (g := 1) (job := total) (ts := []) rfl ?_)) (.call rfl)) (.unlock rfl), rfl, ?_, by decide +kernel, by decide +kernel, by decide +kernel⟩
  · intro p as h
    simp at h
  · intro g
    dsimp only
    split
    · rfl
    · rename_i h1
      split
      · rfl
      · rename_i h2
        simp [h1, h2]

end Verif.Sql.Tx
