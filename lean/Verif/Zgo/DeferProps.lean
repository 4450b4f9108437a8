import Verif.Zgo.DeferSpec
/-!
# C199: deferred calls
-/
namespace Verif.Zgo.Defer

variable {σ V R : Type}

mutual
/-- There is no defer statement. -/
def Stmt.NoDefer : Stmt σ V R → Prop
  | .simple _ => True
  | .defer .. => False
  | .cond _ b => b.NoDefer
/-- There is no defer statement among them. -/
def Stmts.NoDefer : Stmts σ V R → Prop
  | .nil => True
  | .cons s rest => s.NoDefer ∧ rest.NoDefer
end

/-- Defer statements are among the statements of the body only, and are of calls without a result. -/
def Stmts.Outermost : Stmts σ V R → Prop
  | .nil => True
  | .cons (.simple _) rest => rest.Outermost
  | .cons (.cond _ b) rest => b.NoDefer ∧ rest.Outermost
  | .cons (.defer _ _ r) rest => r = false ∧ rest.Outermost

mutual
/-- Nothing in a statement changes what `a` is. -/
def Stmt.Keeps (a : σ → V) : Stmt σ V R → Prop
  | .simple f => ∀ s, match f s with | .next s' => a s' = a s | .ret _ s' => a s' = a s | .panic s' => a s' = a s
  | .defer _ f _ => ∀ v s, a (f v s) = a s
  | .cond _ b => b.Keeps a
/-- Nothing in the statements changes what `a` is. -/
def Stmts.Keeps (a : σ → V) : Stmts σ V R → Prop
  | .nil => True
  | .cons s rest => s.Keeps a ∧ rest.Keeps a
end

/-- The arguments of every deferred call are what they were at the defer statement, whatever comes after it. -/
def Stmts.Stable : Stmts σ V R → Prop
  | .nil => True
  | .cons (.defer a _ _) rest => rest.Keeps a ∧ rest.Stable
  | .cons _ rest => rest.Stable

/-- The function does not panic. -/
def Calm (b : Stmts σ V R) (s : σ) : Prop := ∀ s', Spec.go b s ≠ .panic s'

mutual
theorem compile_noDefer (o : Bool) : ∀ st : Stmt σ V R, st.NoDefer → ∃ z, compileStmt o st = some z ∧ acceptsStmt z = true
  | .simple f, _ => ⟨_, rfl, rfl⟩
  | .defer .., h => by simp [Stmt.NoDefer] at h
  | .cond c b, h => by
    obtain ⟨z, hz, ha⟩ := compiles_noDefer false b h
    exact ⟨.cond c z, by simp [compileStmt, hz], by simpa [acceptsStmt] using ha⟩
theorem compiles_noDefer (o : Bool) : ∀ b : Stmts σ V R, b.NoDefer → ∃ z, compileStmts o b = some z ∧ accepts z = true
  | .nil, _ => ⟨_, rfl, rfl⟩
  | .cons s rest, h => by
    obtain ⟨z, hz, ha⟩ := compile_noDefer o s h.1
    obtain ⟨zs, hzs, has⟩ := compiles_noDefer o rest h.2
    exact ⟨.cons z zs, by simp [compileStmts, hz, hzs], by simp [accepts, ha, has]⟩
end

mutual
theorem compile_inner : ∀ (st : Stmt σ V R) z, compileStmt false st = some z → st.NoDefer
  | .simple f, _, _ => trivial
  | .defer .., z, h => by simp [compileStmt] at h
  | .cond c b, z, h => by
    simp only [compileStmt, Option.map_eq_some_iff] at h
    obtain ⟨z', h', _⟩ := h
    exact compiles_inner b z' h'
theorem compiles_inner : ∀ (b : Stmts σ V R) z, compileStmts false b = some z → b.NoDefer
  | .nil, _, _ => trivial
  | .cons s rest, z, h => by
    simp only [compileStmts, Option.bind_eq_some_iff, Option.map_eq_some_iff] at h
    obtain ⟨z1, h1, z2, h2, _⟩ := h
    exact ⟨compile_inner s z1 h1, compiles_inner rest z2 h2⟩
end

theorem accepted_outermost : ∀ (b : Stmts σ V R) z, compileStmts true b = some z → accepts z = true → b.Outermost
  | .nil, _, _, _ => trivial
  | .cons (.simple f) rest, z, h, ha => by
    simp only [compileStmts, compileStmt, Option.bind_some, Option.map_eq_some_iff] at h
    obtain ⟨z', h', rfl⟩ := h
    simp only [accepts, Bool.and_eq_true] at ha
    exact accepted_outermost rest z' h' ha.2
  | .cons (.cond c b) rest, z, h, ha => by
    simp only [compileStmts, Option.bind_eq_some_iff, Option.map_eq_some_iff] at h
    obtain ⟨z1, h1, z2, h2, rfl⟩ := h
    simp only [accepts, Bool.and_eq_true] at ha
    simp only [compileStmt, Option.map_eq_some_iff] at h1
    obtain ⟨z3, h3, _⟩ := h1
    exact ⟨compiles_inner b z3 h3, accepted_outermost rest z2 h2 ha.2⟩
  | .cons (.defer a f r) rest, z, h, ha => by
    simp only [compileStmts, compileStmt, if_true, Option.bind_some, Option.map_eq_some_iff] at h
    obtain ⟨z', h', rfl⟩ := h
    simp only [accepts, acceptsStmt, Bool.and_eq_true, Bool.not_eq_true'] at ha
    exact ⟨ha.1, accepted_outermost rest z' h' ha.2⟩

theorem outermost_accepted : ∀ b : Stmts σ V R, b.Outermost → ∃ z, compileStmts true b = some z ∧ accepts z = true
  | .nil, _ => ⟨_, rfl, rfl⟩
  | .cons (.simple f) rest, h => by
    obtain ⟨z, hz, ha⟩ := outermost_accepted rest h
    exact ⟨.cons (.simple f) z, by simp [compileStmts, compileStmt, hz], by simpa [accepts, acceptsStmt] using ha⟩
  | .cons (.cond c b) rest, h => by
    obtain ⟨z, hz, ha⟩ := outermost_accepted rest h.2
    obtain ⟨zb, hzb, hab⟩ := compiles_noDefer false b h.1
    exact ⟨.cons (.cond c zb) z, by simp [compileStmts, compileStmt, hz, hzb], by simp [accepts, acceptsStmt, ha, hab]⟩
  | .cons (.defer a f r) rest, h => by
    obtain ⟨z, hz, ha⟩ := outermost_accepted rest h.2
    exact ⟨.cons (.defer a f r) z, by simp [compileStmts, compileStmt, hz], by simp [accepts, acceptsStmt, ha, h.1]⟩

/-- **C199** (what compiles): a function compiles exactly if its defer statements are all among the statements of its body, and of calls
without a result; a function literal only if it has none. -/
theorem accepted_iff (b : Stmts σ V R) :
    ((∃ z, compileFunction b = some z ∧ accepts z = true) ↔ b.Outermost) ∧
    ((∃ z, compileLiteral b = some z ∧ accepts z = true) ↔ b.NoDefer) :=
  ⟨⟨fun ⟨z, h, ha⟩ => accepted_outermost b z h ha, outermost_accepted b⟩,
   ⟨fun ⟨z, h, _⟩ => compiles_inner b z h, compiles_noDefer false b⟩⟩

mutual
/-- Without defers both languages run a block alike, and the stack stays as it is. -/
theorem exec_noDefer : ∀ (b : Stmts σ V R) (s : σ) (ds : List (σ → σ)) (o : Bool) (z : ZStmts σ V R), b.NoDefer → compileStmts o b = some z →
    Spec.exec b s ds = (zrun z s, ds)
  | .nil, s, ds, o, z, _, hz => by
    cases hz
    rfl
  | .cons (.simple f) rest, s, ds, o, z, h, hz => by
    simp only [compileStmts, compileStmt, Option.bind_some, Option.map_eq_some_iff] at hz
    obtain ⟨z', h', rfl⟩ := hz
    unfold Spec.exec zrun Spec.execStmt
    cases f s with
    | next s' => exact exec_noDefer rest s' ds o z' h.2 h'
    | ret r s' => rfl
    | panic s' => rfl
  | .cons (.cond c b) rest, s, ds, o, z, h, hz => by
    simp only [compileStmts, compileStmt, Option.bind_eq_some_iff, Option.map_eq_some_iff] at hz
    obtain ⟨z1, ⟨z3, h3, rfl⟩, z2, h2, rfl⟩ := hz
    unfold Spec.exec zrun Spec.execStmt
    by_cases hc : c s = true
    · rw [if_pos hc, if_pos hc, exec_noDefer b s ds false z3 h.1 h3]
      cases zrun z3 s with
      | next s' => exact exec_noDefer rest s' ds o z2 h.2 h2
      | ret r s' => rfl
      | panic s' => rfl
    · rw [if_neg hc, if_neg hc]
      exact exec_noDefer rest s ds o z2 h.2 h2
  | .cons (.defer ..) rest, s, ds, o, z, h, hz => by
    exact (h.1 : False).elim
end

/-- Where a statement list ends. -/
def Out.state : Out σ R → σ
  | .next s => s
  | .ret _ s => s
  | .panic s => s

/-- The end with a call made after it, unless it is a panic. -/
def Out.finally (g : σ → σ) : Out σ R → Out σ R
  | .next s => .next (g s)
  | .ret r s => .ret r (g s)
  | .panic s => .panic s

theorem keeps_noDefer (a : σ → V) : ∀ (b : Stmts σ V R) (z : ZStmts σ V R) (s : σ) (o : Bool), compileStmts o b = some z → b.Keeps a →
    a (zrun z s).state = a s
  | .nil, z, s, o, hz, _ => by cases hz; rfl
  | .cons (.simple f) rest, z, s, o, hz, h => by
    simp only [compileStmts, compileStmt, Option.bind_some, Option.map_eq_some_iff] at hz
    obtain ⟨z', h', rfl⟩ := hz
    have hk := h.1 s
    unfold zrun
    cases hf : f s with
    | next s' =>
      rw [hf] at hk
      dsimp only at hk ⊢
      rw [keeps_noDefer a rest z' s' o h' h.2, hk]
    | ret r s' => rw [hf] at hk; exact hk
    | panic s' => rw [hf] at hk; exact hk
  | .cons (.cond c b) rest, z, s, o, hz, h => by
    simp only [compileStmts, compileStmt, Option.bind_eq_some_iff, Option.map_eq_some_iff] at hz
    obtain ⟨z1, ⟨z3, h3, rfl⟩, z2, h2, rfl⟩ := hz
    have hb := keeps_noDefer a b z3 s false h3 h.1
    unfold zrun
    by_cases hc : c s = true
    · rw [if_pos hc]
      cases hf : zrun z3 s with
      | next s' =>
        rw [hf] at hb
        dsimp only
        rw [keeps_noDefer a rest z2 s' o h2 h.2]
        exact hb
      | ret r s' => rw [hf] at hb; exact hb
      | panic s' => rw [hf] at hb; exact hb
    · rw [if_neg hc]
      exact keeps_noDefer a rest z2 s o h2 h.2
  | .cons (.defer g f r) rest, z, s, o, hz, h => by
    simp only [compileStmts, compileStmt] at hz
    cases o with
    | false => simp at hz
    | true =>
      simp only [if_true, Option.bind_some, Option.map_eq_some_iff] at hz
      obtain ⟨z', h', rfl⟩ := hz
      have ih := keeps_noDefer a rest z' s true h' h.2
      have hk := h.1
      unfold zrun
      cases hf : zrun z' s with
      | next s' => rw [hf] at ih; exact (hk _ _).trans ih
      | ret r s' => rw [hf] at ih; exact (hk _ _).trans ih
      | panic s' => rw [hf] at ih; exact ih

/-- The end of a function after its statements. -/
def wind (p : Out σ R × List (σ → σ)) (ds : List (σ → σ)) : Prop := ∃ own, p.2 = own ++ ds

theorem exec_outermost : ∀ (b : Stmts σ V R) (z : ZStmts σ V R) (s : σ) (ds : List (σ → σ)), b.Outermost → b.Stable →
    compileStmts true b = some z → (∀ s', (Spec.exec b s ds).1 ≠ .panic s') →
    ∃ own, (Spec.exec b s ds).2 = own ++ ds ∧ zrun z s = Out.finally (Spec.unwind own) (Spec.exec b s ds).1
  | .nil, z, s, ds, _, _, hz, _ => by cases hz; exact ⟨[], rfl, rfl⟩
  | .cons (.simple f) rest, z, s, ds, ho, hst, hz, hp => by
    simp only [compileStmts, compileStmt, Option.bind_some, Option.map_eq_some_iff] at hz
    obtain ⟨z', h', rfl⟩ := hz
    unfold Spec.exec Spec.execStmt at hp ⊢
    unfold zrun
    cases hf : f s with
    | next s' =>
      rw [hf] at hp
      exact exec_outermost rest z' s' ds ho hst h' hp
    | ret r s' => exact ⟨[], rfl, rfl⟩
    | panic s' => rw [hf] at hp; exact absurd rfl (hp s')
  | .cons (.cond c b) rest, z, s, ds, ho, hst, hz, hp => by
    simp only [compileStmts, compileStmt, Option.bind_eq_some_iff, Option.map_eq_some_iff] at hz
    obtain ⟨z1, ⟨z3, h3, rfl⟩, z2, h2, rfl⟩ := hz
    unfold Spec.exec Spec.execStmt at hp ⊢
    unfold zrun
    by_cases hc : c s = true
    · rw [if_pos hc] at hp ⊢
      rw [if_pos hc]
      rw [exec_noDefer b s ds false z3 ho.1 h3] at hp ⊢
      cases hf : zrun z3 s with
      | next s' =>
        rw [hf] at hp
        exact exec_outermost rest z2 s' ds ho.2 hst h2 hp
      | ret r s' => exact ⟨[], rfl, rfl⟩
      | panic s' => rw [hf] at hp; exact absurd rfl (hp s')
    · rw [if_neg hc] at hp ⊢
      rw [if_neg hc]
      exact exec_outermost rest z2 s ds ho.2 hst h2 hp
  | .cons (.defer a f r) rest, z, s, ds, ho, hst, hz, hp => by
    simp only [compileStmts, compileStmt, if_true, Option.bind_some, Option.map_eq_some_iff] at hz
    obtain ⟨z', h', rfl⟩ := hz
    unfold Spec.exec Spec.execStmt at hp ⊢
    dsimp only at hp ⊢
    obtain ⟨own, h1, h2⟩ := exec_outermost rest z' s (f (a s) :: ds) ho.2 hst.2 h' hp
    have hk := keeps_noDefer a rest z' s true h' hst.1
    refine ⟨own ++ [f (a s)], by rw [h1]; simp, ?_⟩
    unfold zrun
    have hu : ∀ t, Spec.unwind (own ++ [f (a s)]) t = f (a s) (Spec.unwind own t) := by
      intro t; simp [Spec.unwind, List.foldl_append]
    rw [h2] at hk ⊢
    cases he : (Spec.exec rest s (f (a s) :: ds)).1 with
    | next s' =>
      rw [he] at hk
      simp only [Out.finally, Out.state] at hk ⊢
      rw [hu, hk]
    | ret r' s' =>
      rw [he] at hk
      simp only [Out.finally, Out.state] at hk ⊢
      rw [hu, hk]
    | panic s' => exact absurd he (hp s')

/-- **C199** (partial): a function that compiles does what it does in Go, its deferred calls in Go's order and with its results unchanged, if it does not
panic and nothing after a defer statement changes the arguments of the deferred call. -/
theorem deferred_calls_partial (b : Stmts σ V R) (z : ZStmts σ V R) (hz : compileFunction b = some z) (ha : accepts z = true)
    (hs : b.Stable) (s : σ) (hp : Calm b s) : zrun z s = Spec.go b s := by
  have hp' : ∀ s', (Spec.exec b s []).1 ≠ .panic s' := by
    intro s' h
    unfold Calm Spec.go at hp
    generalize Spec.exec b s [] = p at h hp
    obtain ⟨o, ds⟩ := p
    cases h
    exact hp _ rfl
  obtain ⟨own, h1, h2⟩ := exec_outermost b z s [] (accepted_outermost b z hz ha) hs hz hp'
  rw [h2]
  unfold Spec.go
  generalize Spec.exec b s [] = p at *
  obtain ⟨o, ds⟩ := p
  simp only [List.append_nil] at h1
  subst h1
  cases o with
  | next s' => rfl
  | ret r s' => rfl
  | panic s' => exact absurd rfl (hp' s')

/-- Writes its argument to the end of the state. -/
def write (v : Nat) (s : List Nat) : List Nat := s ++ [v]

/-- `defer print(1); defer print(2); if c { return 7 }; print(3)` with a state of what was printed. -/
def twoDefers : Stmts (List Nat) Nat Nat :=
  .cons (.defer (fun _ => 1) write false) (.cons (.defer (fun _ => 2) write false)
    (.cons (.cond (fun s => s.isEmpty) (.cons (.simple fun s => .ret 7 s) .nil)) (.cons (.simple fun s => .next (s ++ [3])) .nil)))

example : twoDefers.Stable ∧ (∀ s, Calm twoDefers s) ∧
    (∃ z, compileFunction twoDefers = some z ∧ accepts z = true ∧ zrun z [] = .ret 7 [2, 1] ∧ zrun z [0] = .next [0, 3, 2, 1]) := by
  refine ⟨?_, ?_, _, rfl, rfl, rfl, rfl⟩
  · simp [twoDefers, Stmts.Stable, Stmts.Keeps, Stmt.Keeps]
  · intro s s' h
    unfold Spec.go twoDefers at h
    cases s <;> simp [Spec.exec, Spec.execStmt] at h

/-- **C199** fails: `i := 1; defer print(i); i = 2` prints 1 in Go and 2 when compiled. The state is the variable and what was printed. -/
theorem arguments_late_fails : ∃ (b : Stmts (Nat × List Nat) Nat Unit) (z : _), compileFunction b = some z ∧ accepts z = true ∧
    Spec.go b (1, []) = .next (2, [1]) ∧ zrun z (1, []) = .next (2, [2]) :=
  ⟨.cons (.defer (fun s => s.1) (fun v s => (s.1, s.2 ++ [v])) false) (.cons (.simple fun s => .next (2, s.2)) .nil), _, rfl, rfl, rfl, rfl⟩

/-- A panic makes none of the deferred calls. -/
theorem panic_fails (s : List Nat) : ∃ (b : Stmts (List Nat) Nat Unit) (z : _), compileFunction b = some z ∧ accepts z = true ∧
    Spec.go b s = .panic (s ++ [1]) ∧ zrun z s = .panic s :=
  ⟨.cons (.defer (fun _ => 1) write false) (.cons (.simple fun s => .panic s) .nil), _, rfl, rfl, rfl, rfl⟩

/-- **C199** fails. -/
theorem deferred_calls_fails : ¬ Spec.Holds (List Nat) Nat Unit := by
  intro h
  obtain ⟨z, hz, _, _⟩ := h (.cons (.cond (fun _ => true) (.cons (.defer (fun _ => 1) write false) .nil)) .nil)
  cases hz

end Verif.Zgo.Defer
