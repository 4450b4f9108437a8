import Verif.Zgo.CallSpec
/-!
# C187: calls pass their arguments as in Go
-/
namespace Verif.Zgo.Call
open Verif.Zgo.Call.Spec

variable {E A : Type}

theorem items_seen (p total : Nat) : ∀ (as : List E) (i n : Nat) (acc : List E) (a : E),
    items (some (n, acc)) (.expr a :: emitArgs p true total i true as) = some [.rest n (acc ++ a :: as)]
  | [], i, n, acc, a => rfl
  | b :: as, i, n, acc, a => by
    have : emitArgs p true total i true (b :: as) = .comma :: .expr b :: emitArgs p true total (i + 1) true as := rfl
    rw [this, items, items_seen p total as (i + 1) n (acc ++ [a]) b]
    simp

/-- A token that starts a list of arguments, and what it is read as. -/
inductive Starts : Tok E → Item E → Prop
  | goto : Starts .goto .routine
  | null : Starts .null .routine
  | expr (e) : Starts (.expr e) (.expr e)
  | value (e) : Starts (.value e) (.value e)

theorem items_start {t : Tok E} {it : Item E} (h : Starts t it) :
    items none [t] = some [it] ∧ (∀ ts, items none (t :: .comma :: ts) = (items none ts).map (it :: ·)) ∧
      items none [t, .tuple0] = none := by
  cases h <;> exact ⟨rfl, fun _ => rfl, rfl⟩

theorem items_fixed (p total : Nat) : ∀ (as : List E) (i : Nat) (t : Tok E) (it : Item E), Starts t it →
    items none (t :: emitArgs p false total i false as) = some (it :: as.map .expr)
  | [], i, t, it, h => (items_start h).1
  | a :: as, i, t, it, h => by
    have : emitArgs p false total i false (a :: as) = .comma :: .expr a :: emitArgs p false total (i + 1) false as := rfl
    rw [this, (items_start h).2.1, items_fixed p total as (i + 1) _ _ (.expr a)]; rfl

theorem items_variadic (p total : Nat) : ∀ (as : List E) (i : Nat) (t : Tok E) (it : Item E), Starts t it → i ≤ p - 1 →
    items none (t :: emitArgs p true total i false as) =
      if p - 1 - i < as.length then
        some (it :: (as.take (p - 1 - i)).map .expr ++ [.rest (total + 1 - p) (as.drop (p - 1 - i))])
      else none
  | [], i, t, it, h, _ => by
    have : emitArgs p true total i false ([] : List E) = [.tuple0] := rfl
    rw [this, (items_start h).2.2]; simp
  | a :: as, i, t, it, h, hi => by
    by_cases c : p - 1 ≤ i
    · have : emitArgs p true total i false (a :: as) =
          .comma :: .vopen (total + 1 - p) :: .expr a :: emitArgs p true total (i + 1) true as := by
        simp [emitArgs, c]
      have e : p - 1 - i = 0 := by omega
      rw [this, (items_start h).2.1, items, items_seen, e]
      simp
    · have : emitArgs p true total i false (a :: as) = .comma :: .expr a :: emitArgs p true total (i + 1) false as := by
        simp [emitArgs, c]
      rw [this, (items_start h).2.1, items_variadic p total as (i + 1) _ _ (.expr a) (by omega)]
      have e : p - 1 - i = (p - 1 - (i + 1)) + 1 := by omega
      rw [e]
      by_cases d : p - 1 - (i + 1) < as.length
      · rw [if_pos d, if_pos (by simpa using d)]; simp
      · rw [if_neg d, if_neg (by simpa using d)]; rfl

/-- What the arguments are read as, after the first. -/
def argItems (c : Call E) : List (Item E) :=
  if c.variadic then (c.args.take (c.params - 1)).map .expr ++ [.rest (c.args.length + 1 - c.params) (c.args.drop (c.params - 1))]
  else c.args.map .expr

theorem items_emit (c : Call E) (t : Tok E) (it : Item E) (h : Starts t it) :
    items none (t :: c.emit) =
      if c.variadic = true ∧ ¬ c.params - 1 < c.args.length then none else some (it :: argItems c) := by
  unfold Call.emit argItems
  cases hv : c.variadic with
  | false => rw [items_fixed _ _ _ _ _ _ h]; simp
  | true =>
    rw [items_variadic _ _ _ _ _ _ h (Nat.zero_le _), Nat.sub_zero]
    by_cases d : c.params - 1 < c.args.length <;> simp [d]

theorem argItems_fit (c : Call E) (hw : WellFormed c) (h : c.variadic = true → c.params - 1 < c.args.length) :
    (argItems c).all Item.fits = true := by
  unfold argItems
  cases hv : c.variadic with
  | false => simp [Item.fits]
  | true =>
    have h1 := hw.1 hv
    have h2 := h hv
    simp only [if_true, List.all_append, List.all_map, Bool.and_eq_true]
    refine ⟨by simp [Item.fits, Function.comp_def], ?_⟩
    simp [Item.fits]; omega

/-- What can be called at all: functions of packages, methods, and variables of the function, in at most one pair of
parentheses. -/
def callable : Callee E → Bool
  | .func _ | .method .. | .imethod .. | .local _ => true
  | _ => false

theorem accepted_eq (c : Call E) (hw : WellFormed c) (hv : c.variadic = true → c.params - 1 < c.args.length)
    (hd : c.dots = false) (hp : c.parens < 2) :
    accepted c = match c.callee with
      | .func f => some (.plain f, .routine :: argItems c)
      | .method f e => some (.plain f, .routine :: .expr e :: argItems c)
      | .imethod f e => some (.itype e f, .routine :: .value e :: argItems c)
      | .local x => some (if c.isGo then .go x else .call x, .routine :: argItems c)
      | _ => none := by
  have hcond : ¬ (c.variadic = true ∧ ¬ c.params - 1 < c.args.length) := fun h => h.2 (hv h.1)
  have hfit := argItems_fit c hw hv
  have hp' : ¬ 2 ≤ c.parens := by omega
  have e1 := items_emit c .goto _ .goto
  have e2 := items_emit c .null _ .null
  rw [if_neg hcond] at e1 e2
  unfold accepted compile
  rw [if_neg hp']
  cases hc : c.callee with
  | func f => simp only [e1]; simp [Item.fits, hfit, hd]
  | method f e =>
    have e3 := items_emit c (.expr e) _ (.expr e)
    rw [if_neg hcond] at e3
    simp only [(items_start (.goto : Starts (.goto : Tok E) _)).2.1, e3]; simp [Item.fits, hfit, hd]
  | imethod f e =>
    have e3 := items_emit c (.value e) _ (.value e)
    rw [if_neg hcond] at e3
    simp only [(items_start (.goto : Starts (.goto : Tok E) _)).2.1, e3]; simp [Item.fits, hfit, hd]
  | «local» x =>
    cases hg : c.isGo with
    | true => simp only [if_true, e2]; simp [Item.fits, hfit, hd]
    | false => simp only [Bool.false_eq_true, if_false, e1]; simp [Item.fits, hfit, hd]
  | global | field | lit | conv => rfl

/-- **C187** (what is accepted), exactly: Zig accepts a call that Go accepts if and only if what is called is a
function of a package, a method or a local variable, in at most one pair of parentheses, no argument has dots, and a
variadic function is given at least one argument for its variadic parameter. -/
theorem accepted_iff (c : Call E) (hw : WellFormed c) :
    (accepted c).isSome = true ↔
      callable c.callee = true ∧ c.parens < 2 ∧ c.dots = false ∧ (c.variadic = true → c.params ≤ c.args.length) := by
  have hconv : (c.variadic = true → c.params ≤ c.args.length) ↔ (c.variadic = true → c.params - 1 < c.args.length) := by
    constructor
    · intro h hv; have := h hv; have := (hw.1 hv).1; omega
    · intro h hv; have := h hv; omega
  rw [hconv]
  constructor
  · intro h
    by_cases hp : c.parens < 2
    · by_cases hd : c.dots = false
      · by_cases hv : c.variadic = true → c.params - 1 < c.args.length
        · refine ⟨?_, hp, hd, hv⟩
          rw [accepted_eq c hw hv hd hp] at h
          cases hc : c.callee <;> rw [hc] at h <;> first | rfl | simp at h
        · exfalso
          have hcond : c.variadic = true ∧ ¬ c.params - 1 < c.args.length := by
            by_cases a : c.variadic = true
            · exact ⟨a, fun b => hv fun _ => b⟩
            · exact absurd (fun b => absurd b a) hv
          have e1 := items_emit c .goto _ .goto
          have e2 := items_emit c .null _ .null
          rw [if_pos hcond] at e1 e2
          have hp' : ¬ 2 ≤ c.parens := by omega
          unfold accepted compile at h
          rw [if_neg hp'] at h
          cases hc : c.callee with
          | method f e =>
            have e3 := items_emit c (.expr e) _ (.expr e)
            rw [if_pos hcond] at e3
            rw [hc] at h
            simp [(items_start (.goto : Starts (.goto : Tok E) _)).2.1, e3] at h
          | imethod f e =>
            have e3 := items_emit c (.value e) _ (.value e)
            rw [if_pos hcond] at e3
            rw [hc] at h
            simp [(items_start (.goto : Starts (.goto : Tok E) _)).2.1, e3] at h
          | «local» x =>
            rw [hc] at h
            cases hg : c.isGo <;> simp [hg, e1, e2] at h
          | func f => rw [hc] at h; simp [e1] at h
          | _ => rw [hc] at h; simp at h
      · exfalso
        have hd' : c.dots = true := by simpa using hd
        unfold accepted at h
        split at h
        · simp at h
        · split at h
          · simp [hd'] at h
          · simp at h
        · simp at h
    · exfalso
      have : compile c = none := by unfold compile; rw [if_pos (by omega)]
      unfold accepted at h
      rw [this] at h
      simp at h
  · rintro ⟨h1, hp, hd, hv⟩
    rw [accepted_eq c hw hv hd hp]
    cases hc : c.callee <;> rw [hc] at h1 <;> first | rfl | simp [callable] at h1

theorem argItems_passed (c : Call E) :
    (argItems c).flatMap itemPassed =
      if c.variadic then (c.args.take (c.params - 1)).map .one ++ [.many (c.args.drop (c.params - 1))]
      else c.args.map .one := by
  have h : ∀ l : List E, (l.map Item.expr).flatMap itemPassed = l.map .one := by
    intro l; induction l with
    | nil => rfl
    | cons a l ih => simp only [List.map_cons, List.flatMap_cons, ih]; rfl
  unfold argItems
  split
  · rw [List.flatMap_append, h]; rfl
  · exact h _

theorem argItems_evs (evs : E → List A) (c : Call E) : (argItems c).flatMap (itemEvs evs) = c.args.flatMap evs := by
  have h : ∀ l : List E, (l.map Item.expr).flatMap (itemEvs evs) = l.flatMap evs := by
    intro l; induction l with
    | nil => rfl
    | cons a l ih => simp only [List.map_cons, List.flatMap_cons, ih]; rfl
  unfold argItems
  split
  · rw [List.flatMap_append, h]
    conv => rhs; rw [← List.take_append_drop (c.params - 1) c.args, List.flatMap_append]
    simp [itemEvs]
  · exact h _

/-- **C187** (what is done), partial: an accepted call that is no `go` statement, or is one of a local variable, and
whose receiver's evaluation has no effects if it is of an interface, evaluates its receiver and arguments once, first
to last, and passes them as Go does. -/
theorem call_partial (evs : E → List A) (c : Call E) (hw : WellFormed c) (h : Head E) (is : List (Item E))
    (ha : accepted c = some (h, is)) (hg : c.isGo = true → ∃ x, c.callee = .local x)
    (hi : ∀ f e, c.callee = .imethod f e → evs e = []) :
    zigTrace evs h is = goTrace evs c := by
  obtain ⟨h1, hp, hd, hv⟩ := (accepted_iff c hw).1 (by rw [ha]; rfl)
  have hv' : c.variadic = true → c.params - 1 < c.args.length := by
    intro hh; have := hv hh; have := (hw.1 hh).1; omega
  rw [accepted_eq c hw hv' hd hp] at ha
  have hps := argItems_passed c
  have hes := argItems_evs evs c
  cases hc : c.callee with
  | func f =>
    rw [hc] at ha
    have hgo : c.isGo = false := by
      cases hgo : c.isGo with
      | false => rfl
      | true => obtain ⟨x, hx⟩ := hg hgo; rw [hc] at hx; cases hx
    simp only [Option.some.injEq, Prod.mk.injEq] at ha
    obtain ⟨rfl, rfl⟩ := ha
    simp [zigTrace, goTrace, hc, hgo, recv, target, passed, itemPassed, itemEvs, hps, hes]
  | method f e =>
    rw [hc] at ha
    have hgo : c.isGo = false := by
      cases hgo : c.isGo with
      | false => rfl
      | true => obtain ⟨x, hx⟩ := hg hgo; rw [hc] at hx; cases hx
    simp only [Option.some.injEq, Prod.mk.injEq] at ha
    obtain ⟨rfl, rfl⟩ := ha
    simp [zigTrace, goTrace, hc, hgo, recv, target, passed, itemPassed, itemEvs, hps, hes]
  | imethod f e =>
    rw [hc] at ha
    have hgo : c.isGo = false := by
      cases hgo : c.isGo with
      | false => rfl
      | true => obtain ⟨x, hx⟩ := hg hgo; rw [hc] at hx; cases hx
    simp only [Option.some.injEq, Prod.mk.injEq] at ha
    obtain ⟨rfl, rfl⟩ := ha
    simp [zigTrace, goTrace, hc, hgo, recv, target, passed, itemPassed, itemEvs, hps, hes, hi f e hc]
  | «local» x =>
    rw [hc] at ha
    simp only [Option.some.injEq, Prod.mk.injEq] at ha
    obtain ⟨rfl, rfl⟩ := ha
    cases hgo : c.isGo <;>
      simp [zigTrace, goTrace, hc, hgo, recv, target, passed, itemPassed, itemEvs, hps, hes]
  | global | field | lit | conv => rw [hc] at h1; simp [callable] at h1

/-- A call of a function with one parameter and a variadic one. -/
def exCall : Call Nat := ⟨.func 7, 0, 2, true, [1, 2, 3], false, false⟩

theorem exCall_wf : WellFormed exCall := by
  refine ⟨fun _ => ⟨by decide, by decide⟩, fun h => ?_, fun h => ?_⟩ <;> simp [exCall] at h

example : accepted exCall = some (.plain 7, [.routine, .expr 1, .rest 2 [2, 3]]) := by decide
example : zigTrace (fun e => [e]) (.plain 7) [.routine, .expr 1, .rest 2 [2, 3]] = goTrace (fun e => [e]) exCall :=
  call_partial _ exCall exCall_wf _ _ (by decide) (by intro h; simp [exCall] at h) (by intro f e h; simp [exCall] at h)

/-- **C187**, the full claim is false: `go f(x)` calls a function of a package and waits for it, for every call that
is accepted. -/
theorem go_fails (evs : E → List A) (c : Call E) (hw : WellFormed c) (f : Nat) (hc : c.callee = .func f)
    (hgo : c.isGo = true) (h : Head E) (is : List (Item E)) (ha : accepted c = some (h, is)) :
    ∃ before ps, zigTrace evs h is = before ++ [.called (.func f) ps] ∧
      goTrace evs c = before ++ [.spawned (.func f) ps] := by
  obtain ⟨h1, hp, hd, hv⟩ := (accepted_iff c hw).1 (by rw [ha]; rfl)
  have hv' : c.variadic = true → c.params - 1 < c.args.length := by
    intro hh; have := hv hh; have := (hw.1 hh).1; omega
  rw [accepted_eq c hw hv' hd hp, hc] at ha
  simp only [Option.some.injEq, Prod.mk.injEq] at ha
  obtain ⟨rfl, rfl⟩ := ha
  refine ⟨(c.args.flatMap evs).map .eval, passed c, ?_, ?_⟩
  · simp [zigTrace, hc, recv, passed, itemPassed, itemEvs, argItems_passed c, argItems_evs evs c]
  · simp [goTrace, hc, hgo, recv, target]

example : WellFormed { exCall with isGo := true } ∧ (accepted { exCall with isGo := true }).isSome = true :=
  ⟨⟨fun _ => ⟨by decide, by decide⟩, fun h => by simp [exCall] at h, fun h => by simp [exCall] at h⟩, by decide⟩

/-- **C187**, the full claim is false: `f().M()` evaluates `f()` twice if it is of an interface type. -/
theorem receiver_twice_fails (evs : E → List A) (f : Nat) (e : E) :
    accepted (⟨.imethod f e, 0, 0, false, [], false, false⟩ : Call E) = some (.itype e f, [.routine, .value e]) ∧
    zigTrace evs (.itype e f) [.routine, .value e] = ((evs e ++ evs e).map .eval) ++ [.called (.method f) [.one e]] ∧
    goTrace evs ⟨.imethod f e, 0, 0, false, [], false, false⟩ = ((evs e).map .eval) ++ [.called (.method f) [.one e]] := by
  refine ⟨rfl, ?_, ?_⟩
  · simp [zigTrace, itemEvs, itemPassed]
  · simp [goTrace, recv, target, passed]

end Verif.Zgo.Call
