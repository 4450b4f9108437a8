import Verif.Zgo.FlowLemmas

/-!
# zgo control flow: properties C169 and C170
-/
namespace Verif.Zgo.Flow
open Spec

/-- C169: the compiled statement is accepted by Zig where Go accepts the statement, and does the same. -/
def KeepsControlFlow (s : Stmt) : Prop :=
  ∃ z, compile s = some z ∧ ZigValid {} z ∧
    ∀ (σ : Type) (env : Env σ) (fuel : Nat) (x : σ), zigRun env fuel z x = goRun env fuel s x

/-- C169, for statements in a function whose switches have a `default`, no `fallthrough` and no `break` of
their own, whose range loops and switches have no label and whose `if` have no initial statement. -/
theorem control_flow_partial (s : Stmt) (hg : GoValid {} s) (hp : Plain false s) : KeepsControlFlow s := by
  obtain ⟨z, hz, hv⟩ := valid_run s {} {} false hg hp ⟨rfl, rfl, rfl, fun h => by simp at h⟩
  exact ⟨z, hz, hv, fun σ env fuel x => run_eq env fuel s z false x hz hp⟩

/-- What such a statement does is decided by its compiled form for any state and any number of rounds. -/
theorem compiled_statement_agrees_partial (s : Stmt) (z : ZStmt) (sw : Bool) (hp : Plain sw s)
    (hz : compile s = some z) (σ : Type) (env : Env σ) (fuel : Nat) (x : σ) :
    zigRun env fuel z x = goRun env fuel s x := run_eq env fuel s z sw x hz hp

/-- One statement. -/
def one (s : Stmt) : Stmts := .cons s .nil

/-- `L: for init; c; post { switch t { case 1: continue; default: break L } ; for range r { if c { break } } }` -/
def sample : Stmt :=
  .loop (some 7) (some 0) 1 (some 2)
    (.cons (.switch none 3 (.cons (some [1]) (one (.cont none)) false
      (.cons none (one (.brk (some 7))) false .nil)))
      (one (.range none 4 (one (.cond none 5 (one (.brk none)) .nil)))))

example : GoValid {} sample ∧ Plain false sample := by
  simp [sample, one, GoValid, GoValidAll, GoValidClauses, Plain, PlainAll, PlainClauses, hasDefault, Ctx.loop]

example : KeepsControlFlow sample :=
  control_flow_partial sample
    (by simp [sample, one, GoValid, GoValidAll, GoValidClauses, Ctx.loop])
    (by simp [sample, one, Plain, PlainAll, PlainClauses, hasDefault])

/-! ## Where it fails -/

/-- A state that counts: `act n` adds `n`, conditions say whether it is below `n`, a tag is 1 always, a range
has three values, and binding does nothing. -/
def counting : Env Nat where
  act n s := s + n
  test n s := s < n
  tag _ _ := 1
  count _ _ := 3
  bind _ _ s := s

/-- `for range 3 { switch 1 { case 1: break; default: } ; act 10 }`. -/
def breakInSwitch : Stmt :=
  .range none 0 (.cons (.switch none 0 (.cons (some [1]) (one (.brk none)) false (.cons none .nil false .nil)))
    (one (.act 10)))

/-- C169 fails for `break` in a switch in a loop: it leaves the loop, without any diagnostic. -/
theorem break_in_switch_fails : GoValid {} breakInSwitch ∧
    ∃ z, compile breakInSwitch = some z ∧ ZigValid {} z ∧
      goRun counting 9 breakInSwitch 0 = some (30, .normal) ∧ zigRun counting 9 z 0 = some (0, .normal) := by
  refine ⟨by simp [breakInSwitch, one, GoValid, GoValidAll, GoValidClauses, Ctx.loop], _, rfl, ?_, by decide, by decide⟩
  simp [ZigValid, ZigValidAll, ZigValidClauses, hasElse, Ctx.loop, withInit]

/-- `L: for range 3 { act 1; break L }`. -/
def breakLabelledRange : Stmt := .range (some 0) 0 (.cons (.act 1) (one (.brk (some 0))))

/-- C169 fails for `break` with the label of a range loop: the loop goes on, without any diagnostic. -/
theorem break_labelled_range_fails : GoValid {} breakLabelledRange ∧
    ∃ z, compile breakLabelledRange = some z ∧ ZigValid {} z ∧
      goRun counting 9 breakLabelledRange 0 = some (1, .normal) ∧
      zigRun counting 9 z 0 = some (3, .normal) := by
  refine ⟨by simp [breakLabelledRange, one, GoValid, GoValidAll, Ctx.loop], _, rfl, ?_, by decide, by decide⟩
  simp [ZigValid, ZigValidAll, Ctx.loop]

/-- `switch t { case 1: act 1; fallthrough; default: act 10 }`. -/
def fallsThrough : Stmt :=
  .switch none 0 (.cons (some [1]) (one (.act 1)) true (.cons none (one (.act 10)) false .nil))

/-- C169 fails for `fallthrough`: it is dropped, without any diagnostic. -/
theorem fallthrough_fails : GoValid {} fallsThrough ∧
    ∃ z, compile fallsThrough = some z ∧ ZigValid {} z ∧
      goRun counting 9 fallsThrough 0 = some (11, .normal) ∧ zigRun counting 9 z 0 = some (1, .normal) := by
  refine ⟨by simp [fallsThrough, one, GoValid, GoValidAll, GoValidClauses], _, rfl, ?_, by decide, by decide⟩
  simp [ZigValid, ZigValidAll, ZigValidClauses, hasElse, withInit]

/-- `L: for range 3 { continue L }` is refused by Zig. -/
theorem continue_labelled_range_fails :
    GoValid {} (.range (some 0) 0 (one (.cont (some 0)))) ∧
    ∀ z, compile (.range (some 0) 0 (one (.cont (some 0)))) = some z → ¬ ZigValid {} z := by
  refine ⟨by simp [one, GoValid, GoValidAll, Ctx.loop], fun z h => ?_⟩
  simp [compile, compileAll, one] at h
  subst h
  simp [ZigValid, ZigValidAll, Ctx.loop]

/-- A switch without `default` is refused by Zig, whatever is in it. -/
theorem switch_without_default_fails (tag : Nat) (g : List Int) (b : Stmts) (z : ZStmt) :
    compile (.switch none tag (.cons (some g) b false .nil)) = some z → ∀ c, ¬ ZigValid c z := by
  intro h c
  simp only [compile, compileClauses, withInit] at h
  cases hb : compileAll b with
  | none => simp [hb] at h
  | some b' => simp [hb] at h; subst h; simp [ZigValid, hasElse]

/-- A label on a switch, and an `if` with an initial statement, are refused by the compiler or give text that
is not a statement. -/
theorem not_compiled_fails : GoValid {} (.labelled 0 fallsThrough) ∧ compile (.labelled 0 fallsThrough) = none ∧
    GoValid {} (.cond (some 0) 0 .nil .nil) ∧ compile (.cond (some 0) 0 .nil .nil) = none := by
  refine ⟨?_, rfl, ?_, rfl⟩ <;> simp [fallsThrough, one, GoValid, GoValidAll, GoValidClauses]

/-- C169 does not hold for every statement Go accepts. -/
theorem control_flow_fails : ¬ ∀ s, GoValid {} s → KeepsControlFlow s := by
  intro h
  obtain ⟨hg, z, hz, _, h1, h2⟩ := fallthrough_fails
  obtain ⟨z', hz', _, he⟩ := h _ hg
  have : z' = z := by rw [hz] at hz'; simpa using hz'.symm
  subst this
  have := he Nat counting 9 0
  rw [h1, h2] at this
  simp at this

/-! ## C170 -/

/-- C170: every brace written for a statement is closed exactly when there is no `if` with an initial
statement in it. -/
theorem braces_iff (s : Stmt) : Balanced (braces s) ↔ ifInits s = 0 := by
  have := nest_run s 0 []
  rw [List.append_nil] at this
  unfold Balanced
  rw [this]
  simp [nest]

/-- Every `if` with an initial statement leaves one brace open. -/
theorem braces_left_open (s : Stmt) (d : Nat) : nest d (braces s) = some (d + ifInits s) := by
  have := nest_run s d []
  rw [List.append_nil] at this
  rw [this]
  rfl

/-- C170 fails for `if init; c { … }`, whatever the statements in it are. -/
theorem if_with_init_fails (i c : Nat) (t e : Stmts) : ¬ Balanced (braces (.cond (some i) c t e)) := by
  rw [braces_iff]
  simp [ifInits]

example : Balanced (braces sample) := by rw [braces_iff]; rfl

end Verif.Zgo.Flow
