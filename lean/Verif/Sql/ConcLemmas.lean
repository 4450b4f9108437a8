import Verif.Sql.Conc
import Verif.Sql.Lemmas

namespace Verif.Sql
variable {K V : Type} [DecidableEq K]

/-- The answer a caller has got, if any. -/
def Pc.got : Pc V → Option (Ans V)
  | .unlocking a => some a
  | .done a => some a
  | _ => none

/-- The caller holds the mutex. -/
def Pc.inside : Pc V → Bool
  | .locked => true
  | .loaded _ => true
  | .unlocking _ => true
  | _ => false

/-- The key and check of a call that uses the mutex. -/
def Op.guard : Op K V → Option (K × Option (V → List Bool))
  | .delete k c => some (k, c)
  | .mutate k c _ => some (k, c)
  | _ => none

/-- Like `Explains`, for calls that have their answer. -/
def Expl (s : CSt K V) (f : PMap K V) : List Nat → Prop
  | [] => True
  | t :: ts => ∃ c, s.callers[t]? = some c ∧ c.pc.got = some (onMap f c.op).2 ∧ Expl s (onMap f c.op).1 ts

/-- The invariant. -/
structure CInv (s : CSt K V) : Prop where
  noUp : ∀ (t : Nat) c, s.callers[t]? = some c → ∀ k v, c.op ≠ .insert k true v
  lin : replay s (fun _ => none) s.log = load s.map
  expl : Expl s (fun _ => none) s.log
  logged : ∀ (t : Nat), t ∈ s.log ↔ ∃ c, s.callers[t]? = some c ∧ c.pc.got.isSome = true
  nodup : s.log.Nodup
  mutex : ∀ (t : Nat) c, s.callers[t]? = some c → c.pc.inside = true → s.mutex = some t
  loaded : ∀ (t : Nat) c v, s.callers[t]? = some c → c.pc = .loaded v → ∃ k ch, c.op.guard = some (k, ch) ∧ load s.map k = some v ∧ Passes ch v

theorem replay_append (s : CSt K V) (l : List Nat) (t : Nat) : ∀ f, replay s f (l ++ [t]) =
    match s.callers[t]? with | none => replay s f l | some c => (onMap (replay s f l) c.op).1 := by
  induction l with
  | nil => intro f; simp only [List.nil_append, replay]; cases s.callers[t]? <;> rfl
  | cons x l ih =>
    intro f
    rw [List.cons_append, replay, replay]
    cases s.callers[x]? with
    | none => exact ih f
    | some c => exact ih _

theorem expl_append (s : CSt K V) (l : List Nat) (t : Nat) : ∀ f, Expl s f l →
    (∃ c, s.callers[t]? = some c ∧ c.pc.got = some (onMap (replay s f l) c.op).2) → Expl s f (l ++ [t]) := by
  induction l with
  | nil => rintro f _ ⟨c, h1, h2⟩; exact ⟨c, h1, h2, trivial⟩
  | cons x l ih =>
    rintro f ⟨c, h1, h2, h3⟩ h4
    refine ⟨c, h1, h2, ih _ h3 ?_⟩
    rw [replay, h1] at h4
    exact h4

/-- Callers keep their call and their answer. -/
def Keeps (s s' : CSt K V) : Prop :=
  ∀ (t : Nat) c, s.callers[t]? = some c → ∃ c', s'.callers[t]? = some c' ∧ c'.op = c.op ∧ ∀ a, c.pc.got = some a → c'.pc.got = some a

theorem Keeps.expl {s s' : CSt K V} (h : Keeps s s') : ∀ (l : List Nat) f, Expl s f l → Expl s' f l := by
  intro l
  induction l with
  | nil => intro f _; trivial
  | cons t l ih =>
    rintro f ⟨c, h1, h2, h3⟩
    obtain ⟨c', g1, g2, g3⟩ := h t c h1
    refine ⟨c', g1, ?_, ?_⟩
    · rw [g2]; exact g3 _ h2
    · rw [g2]; exact ih _ h3

theorem Keeps.replay {s s' : CSt K V} (h : Keeps s s') : ∀ (l : List Nat) f, Expl s f l → replay s' f l = replay s f l := by
  intro l
  induction l with
  | nil => intro f _; rfl
  | cons t l ih =>
    rintro f ⟨c, h1, h2, h3⟩
    obtain ⟨c', g1, g2, g3⟩ := h t c h1
    rw [Verif.Sql.replay, Verif.Sql.replay, h1, g1]
    dsimp only
    rw [g2]
    exact ih _ h3

theorem set_get {s : CSt K V} {t : Nat} {x} (h : s.callers[t]? = some x) (op : Op K V) (pc : Pc V) (k : Nat) :
    (s.callers.set t ⟨op, pc⟩)[k]? = if t = k then some ⟨op, pc⟩ else s.callers[k]? := by
  rw [List.getElem?_set]
  have : t < s.callers.length := by
    rcases Nat.lt_or_ge t s.callers.length with hi | hi
    · exact hi
    · rw [List.getElem?_eq_none hi] at h; cases h
  by_cases e : t = k
  · rw [if_pos e, if_pos e, if_pos this]
  · rw [if_neg e, if_neg e]

theorem set_keeps {s s' : CSt K V} {t : Nat} {op : Op K V} {pc pc' : Pc V} (h : s.callers[t]? = some ⟨op, pc⟩)
    (hs : s'.callers = s.callers.set t ⟨op, pc'⟩) (hg : ∀ a, pc.got = some a → pc'.got = some a) : Keeps s s' := by
  intro k c hc
  rw [hs, set_get h]
  by_cases e : t = k
  · subst e
    rw [h] at hc; injection hc with hc; subst hc
    exact ⟨⟨op, pc'⟩, by rw [if_pos rfl], rfl, hg⟩
  · rw [if_neg e]; exact ⟨c, hc, rfl, fun _ h => h⟩

/-- A step that takes effect. -/
theorem CInv.effect {s s' : CSt K V} (h : CInv s) {t : Nat} {op : Op K V} {pc pc' : Pc V} {a : Ans V} (ht : s.callers[t]? = some ⟨op, pc⟩)
    (hg : pc.got = none) (hg' : pc'.got = some a) (hc : s'.callers = s.callers.set t ⟨op, pc'⟩) (hl : s'.log = s.log ++ [t])
    (hm : s'.mutex = s.mutex) (hin : pc'.inside = true → s.mutex = some t)
    (hmap : load s'.map = (onMap (load s.map) op).1) (ha : a = (onMap (load s.map) op).2)
    (hother : ∀ (k : Nat) c v kk ch, t ≠ k → s.callers[k]? = some c → c.pc = .loaded v → c.op.guard = some (kk, ch) → load s.map kk = some v → load s'.map kk = some v) :
    CInv s' := by
  have hk : Keeps s s' := set_keeps ht hc (by intro a ha; rw [hg] at ha; cases ha)
  have hget : s'.callers[t]? = some ⟨op, pc'⟩ := by rw [hc, set_get ht, if_pos rfl]
  have hoth : ∀ k : Nat, t ≠ k → s'.callers[k]? = s.callers[k]? := by intro k e; rw [hc, set_get ht, if_neg e]
  have hnot : t ∉ s.log := by
    intro hm
    obtain ⟨c, h1, h2⟩ := (h.logged t).mp hm
    rw [ht] at h1; injection h1 with h1; subst h1
    rw [hg] at h2; cases h2
  have hrep : replay s' (fun _ => none) s.log = load s.map := by rw [hk.replay _ _ h.expl, h.lin]
  refine ⟨?_, ?_, ?_, ?_, ?_, ?_, ?_⟩
  · intro k c hk' 
    by_cases e : t = k
    · subst e; rw [hget] at hk'; injection hk' with hk'; subst hk'; exact h.noUp t ⟨op, pc⟩ ht
    · rw [hoth k e] at hk'; exact h.noUp k c hk'
  · rw [hl, replay_append, hget]; dsimp only; rw [hrep, hmap]
  · rw [hl]
    refine expl_append s' s.log t _ (hk.expl _ _ h.expl) ⟨_, hget, ?_⟩
    rw [hrep, hg', ha]
  · intro k
    rw [hl, List.mem_append, List.mem_singleton]
    by_cases e : t = k
    · subst e; exact ⟨fun _ => ⟨_, hget, by rw [hg']; rfl⟩, fun _ => .inr rfl⟩
    · rw [hoth k e, ← h.logged]
      exact ⟨fun h => h.resolve_right (fun e' => e e'.symm), .inl⟩
  · rw [hl, List.nodup_append]
    refine ⟨h.nodup, by simp, ?_⟩
    intro x hx y hy
    rw [List.mem_singleton] at hy; subst hy
    rintro rfl; exact hnot hx
  · intro k c hk' hin'
    rw [hm]
    by_cases e : t = k
    · subst e; rw [hget] at hk'; injection hk' with hk'; subst hk'; exact hin hin'
    · rw [hoth k e] at hk'; exact h.mutex k c hk' hin'
  · intro k c v hk' hv
    by_cases e : t = k
    · subst e; rw [hget] at hk'; injection hk' with hk'; subst hk'
      rw [show pc' = .loaded v from hv] at hg'; cases hg'
    · rw [hoth k e] at hk'
      obtain ⟨kk, ch, h1, h2, h3⟩ := h.loaded k c v hk' hv
      exact ⟨kk, ch, h1, hother k c v kk ch e hk' hv h1 h2, h3⟩

/-- A step that takes no effect. -/
theorem CInv.quiet {s s' : CSt K V} (h : CInv s) {t : Nat} {op : Op K V} {pc pc' : Pc V} (ht : s.callers[t]? = some ⟨op, pc⟩)
    (hg : pc'.got = pc.got) (hc : s'.callers = s.callers.set t ⟨op, pc'⟩) (hl : s'.log = s.log) (hmap : s'.map = s.map)
    (hmx : ∀ (k : Nat) c, t ≠ k → s.callers[k]? = some c → c.pc.inside = true → s'.mutex = some k)
    (hin : pc'.inside = true → s'.mutex = some t)
    (hld : ∀ v, pc' = .loaded v → ∃ k ch, op.guard = some (k, ch) ∧ load s.map k = some v ∧ Passes ch v) : CInv s' := by
  have hk : Keeps s s' := set_keeps ht hc (by intro a ha; rw [hg]; exact ha)
  have hget : s'.callers[t]? = some ⟨op, pc'⟩ := by rw [hc, set_get ht, if_pos rfl]
  have hoth : ∀ k : Nat, t ≠ k → s'.callers[k]? = s.callers[k]? := by intro k e; rw [hc, set_get ht, if_neg e]
  refine ⟨?_, ?_, ?_, ?_, ?_, ?_, ?_⟩
  · intro k c hk' 
    by_cases e : t = k
    · subst e; rw [hget] at hk'; injection hk' with hk'; subst hk'; exact h.noUp t ⟨op, pc⟩ ht
    · rw [hoth k e] at hk'; exact h.noUp k c hk'
  · rw [hl, hk.replay _ _ h.expl, h.lin, hmap]
  · rw [hl]; exact hk.expl _ _ h.expl
  · intro k
    rw [hl]
    by_cases e : t = k
    · subst e
      rw [h.logged t]
      constructor
      · rintro ⟨c, h1, h2⟩
        rw [ht] at h1; injection h1 with h1; subst h1
        exact ⟨_, hget, by rw [hg]; exact h2⟩
      · rintro ⟨c, h1, h2⟩
        rw [hget] at h1; injection h1 with h1; subst h1
        exact ⟨_, ht, by rw [← hg]; exact h2⟩
    · rw [hoth k e, ← h.logged]
  · rw [hl]; exact h.nodup
  · intro k c hk' hin'
    by_cases e : t = k
    · subst e; rw [hget] at hk'; injection hk' with hk'; subst hk'; exact hin hin'
    · rw [hoth k e] at hk'; exact hmx k c e hk' hin'
  · intro k c v hk' hv
    rw [hmap]
    by_cases e : t = k
    · subst e; rw [hget] at hk'; injection hk' with hk'; subst hk'; exact hld v hv
    · rw [hoth k e] at hk'; exact h.loaded k c v hk' hv

theorem CInv.lock {s : CSt K V} (h : CInv s) {t : Nat} {op : Op K V} (ht : s.callers[t]? = some ⟨op, .start⟩) : CInv (s.lock t op) := by
  unfold CSt.lock
  split
  · exact h
  · rename_i hm
    refine h.quiet (pc' := .locked) ht rfl rfl rfl rfl ?_ (fun _ => rfl) (by intro v hv; cases hv)
    intro k c _ hk hin
    rw [h.mutex k c hk hin] at hm; cases hm

theorem CInv.unlock {s : CSt K V} (h : CInv s) {t : Nat} {op : Op K V} {a : Ans V} (ht : s.callers[t]? = some ⟨op, .unlocking a⟩) :
    CInv (s.unlock t op a) := by
  refine h.quiet (pc' := .done a) ht rfl rfl rfl rfl ?_ (by intro h; cases h) (by intro v hv; cases hv)
  intro k c e hk hin
  have h1 := h.mutex k c hk hin
  have h2 := h.mutex t _ ht rfl
  rw [h1] at h2; injection h2 with h2; exact absurd h2.symm e

/-- What the guard of a call decides. -/
theorem guard_fails {f : PMap K V} {op : Op K V} {k : K} {ch} (hg : op.guard = some (k, ch)) (h : f k = none ∨ ∃ v, f k = some v ∧ ¬ Passes ch v) :
    onMap f op = (f, .did false) := by
  cases op <;> simp only [Op.guard, reduceCtorEq, Option.some.injEq, Prod.mk.injEq] at hg
  all_goals
    obtain ⟨rfl, rfl⟩ := hg
    rcases h with h | ⟨v, h1, h2⟩
    · simp [onMap, h]
    · simp [onMap, h1, h2]

theorem CInv.check {s : CSt K V} (h : CInv s) {t : Nat} {op : Op K V} {k : K} {ch} (hg : op.guard = some (k, ch))
    (ht : s.callers[t]? = some ⟨op, .locked⟩) : CInv (s.check t op k ch) := by
  have hmx := h.mutex t _ ht rfl
  have bad : (load s.map k = none ∨ ∃ v, load s.map k = some v ∧ ¬ Passes ch v) → CInv ((s.effect t s.map).goto t op (.unlocking (.did false))) := by
    intro hb
    have e := guard_fails hg hb
    refine h.effect (pc' := .unlocking (.did false)) (a := .did false) ht rfl rfl rfl rfl rfl (fun _ => hmx) ?_ ?_ ?_
    · rw [e]; rfl
    · rw [e]
    · intro _ _ _ _ _ _ _ _ _ hl; exact hl
  unfold CSt.check
  split
  · exact bad (.inl (by assumption))
  · rename_i v hv
    split
    · rename_i hr
      exact bad (.inr ⟨v, hv, (refused_iff ch v).mp hr⟩)
    · rename_i hr
      refine h.quiet (pc' := .loaded v) ht rfl rfl rfl rfl ?_ (fun _ => hmx) ?_
      · intro k' c _ hk hin; exact h.mutex k' c hk hin
      · intro v' hv'
        injection hv' with hv'; subst hv'
        refine ⟨k, ch, hg, hv, ?_⟩
        rw [refused_iff] at hr
        exact Classical.not_not.mp hr

theorem CInv.step {s : CSt K V} (h : CInv s) {t : Nat} {op : Op K V} {pc : Pc V} (ht : s.callers[t]? = some ⟨op, pc⟩) : CInv (cstep s t op pc) := by
  have other_mutex : ∀ {v0 : V}, pc = .loaded v0 → ∀ (k : Nat) c v, t ≠ k → s.callers[k]? = some c → c.pc = .loaded v → False := by
    rintro v0 rfl k c v e hk hv
    have h1 := h.mutex t _ ht rfl
    have h2 := h.mutex k c hk (by rw [hv]; rfl)
    rw [h1] at h2; injection h2 with h2; exact e h2
  cases op with
  | insert k u v =>
    cases pc with
    | start =>
      cases u with
      | true => exact absurd rfl (h.noUp t _ ht k v)
      | false =>
        have hr := op_refines s.map (.insert k false v)
        refine h.effect (pc' := .done (.error (insert s.map k false v).2)) ht rfl rfl rfl rfl rfl (by intro h; cases h) hr.1 hr.2 ?_
        intro k' c w kk ch _ _ _ _ hl
        show load (insert s.map k false v).1 kk = some w
        rw [insert]
        simp only [Bool.false_eq_true, if_false]
        split
        · exact hl
        · rename_i hn
          rw [load_store, if_neg]
          · exact hl
          · rintro rfl; rw [hl] at hn; cases hn
    | _ => exact h
  | lookup k =>
    cases pc with
    | start => exact h.effect (pc' := .done (.found (lookup s.map k))) ht rfl rfl rfl rfl rfl (by intro h; cases h) rfl rfl (by intro _ _ _ _ _ _ _ _ _ hl; exact hl)
    | _ => exact h
  | delete k ch =>
    cases pc with
    | start => exact h.lock ht
    | locked => exact h.check rfl ht
    | loaded v =>
      obtain ⟨k', ch', h1, h2, h3⟩ := h.loaded t _ v ht rfl
      injection h1 with h1; injection h1 with e1 e2; subst e1; subst e2
      have e : onMap (load s.map) (.delete k ch) = (PMap.set (load s.map) k none, .did true) := by rw [onMap, h2]; simp [h3]
      refine h.effect (pc' := .unlocking (.did true)) ht rfl rfl rfl rfl rfl (fun _ => h.mutex t _ ht rfl) ?_ ?_ ?_
      · rw [e]; exact load_delete_set _ _
      · rw [e]
      · intro k' c w kk ch' e hk hv; exact (other_mutex rfl k' c w e hk hv).elim
    | unlocking a => exact h.unlock ht
    | done a => exact h
  | mutate k ch p =>
    cases pc with
    | start => exact h.lock ht
    | locked => exact h.check rfl ht
    | loaded v =>
      obtain ⟨k', ch', h1, h2, h3⟩ := h.loaded t _ v ht rfl
      injection h1 with h1; injection h1 with e1 e2; subst e1; subst e2
      have e : onMap (load s.map) (.mutate k ch p) = (PMap.set (load s.map) k (some (p v)), .did true) := by rw [onMap, h2]; simp [h3]
      refine h.effect (pc' := .unlocking (.did true)) ht rfl rfl rfl rfl rfl (fun _ => h.mutex t _ ht rfl) ?_ ?_ ?_
      · rw [e]; exact load_store_set _ _ _
      · rw [e]
      · intro k' c w kk ch' e hk hv; exact (other_mutex rfl k' c w e hk hv).elim
    | unlocking a => exact h.unlock ht
    | done a => exact h

theorem CInv.act {s : CSt K V} (h : CInv s) (a : CAct K V) (ha : ∀ k v, a ≠ .call (.insert k true v)) : CInv (cact s a) := by
  cases a with
  | run t =>
    rw [cact]
    split
    · exact h
    · rename_i c hc
      exact h.step (op := c.op) (pc := c.pc) hc
  | call op =>
    have g : ∀ (k : Nat) c, (s.callers ++ [(⟨op, .start⟩ : Caller K V)])[k]? = some c → s.callers[k]? = some c ∨ (k = s.callers.length ∧ c = ⟨op, .start⟩) := by
      intro k c hk
      rcases Nat.lt_or_ge k s.callers.length with h1 | h1
      · rw [List.getElem?_append_left h1] at hk; exact .inl hk
      · rw [List.getElem?_append_right h1] at hk
        cases hd : k - s.callers.length with
        | zero => rw [hd] at hk; simp at hk; exact .inr ⟨by omega, hk.symm⟩
        | succ n => rw [hd] at hk; simp at hk
    have g' : ∀ (k : Nat) c, s.callers[k]? = some c → (s.callers ++ [(⟨op, .start⟩ : Caller K V)])[k]? = some c := by
      intro k c hk
      rw [List.getElem?_append_left]
      · exact hk
      · rcases Nat.lt_or_ge k s.callers.length with h1 | h1
        · exact h1
        · rw [List.getElem?_eq_none h1] at hk; cases hk
    have hk : Keeps s (cact s (.call op)) := fun t c hc => ⟨c, g' t c hc, rfl, fun _ h => h⟩
    refine ⟨?_, ?_, hk.expl _ _ h.expl, ?_, h.nodup, ?_, ?_⟩
    · intro k c hk'
      rcases g k c hk' with h1 | ⟨_, rfl⟩
      · exact h.noUp k c h1
      · intro k v e; exact ha k v (by rw [← e])
    · show replay (cact s (.call op)) _ s.log = _
      rw [hk.replay _ _ h.expl]; exact h.lin
    · intro t
      show t ∈ s.log ↔ _
      rw [h.logged]
      constructor
      · rintro ⟨c, h1, h2⟩; exact ⟨c, g' t c h1, h2⟩
      · rintro ⟨c, h1, h2⟩
        rcases g t c h1 with h3 | ⟨_, rfl⟩
        · exact ⟨c, h3, h2⟩
        · cases h2
    · intro k c hk' hin
      rcases g k c hk' with h1 | ⟨_, rfl⟩
      · exact h.mutex k c h1 hin
      · cases hin
    · intro k c v hk' hv
      rcases g k c hk' with h1 | ⟨_, rfl⟩
      · exact h.loaded k c v h1 hv
      · cases hv

theorem cinv_init : CInv (⟨[], none, [], []⟩ : CSt K V) := by
  refine ⟨?_, rfl, trivial, ?_, List.nodup_nil, ?_, ?_⟩
  · intro t c h; cases h
  · intro t; simp
  · intro t c h; cases h
  · intro t c v h; cases h

theorem cinv_run (as : List (CAct K V)) (h : NoUpsert as) : CInv (crun as) := by
  unfold crun
  have : ∀ (as : List (CAct K V)) (s : CSt K V), NoUpsert as → CInv s → CInv (as.foldl cact s) := by
    intro as
    induction as with
    | nil => intro s _ h; exact h
    | cons a as ih => intro s hn h; exact ih _ (fun x hx => hn x (List.mem_cons_of_mem _ hx)) (h.act a (hn a (by simp)))
  exact this as _ h cinv_init

/-- Effects are only ever added. -/
theorem cstep_log (s : CSt K V) (t : Nat) (op : Op K V) (pc : Pc V) : s.log <+: (cstep s t op pc).log := by
  unfold cstep CSt.lock CSt.check CSt.unlock CSt.effect CSt.goto
  repeat' split
  all_goals first | exact List.prefix_refl _ | exact List.prefix_append _ _

theorem crun_log (as bs : List (CAct K V)) : (crun as).log <+: (crun (as ++ bs)).log := by
  unfold crun
  rw [List.foldl_append]
  generalize as.foldl cact _ = s
  induction bs generalizing s with
  | nil => exact List.prefix_refl _
  | cons b bs ih =>
    refine List.IsPrefix.trans ?_ (ih (cact s b))
    cases b with
    | call op => exact List.prefix_refl _
    | run t =>
      rw [cact]
      split
      · exact List.prefix_refl _
      · exact cstep_log ..

end Verif.Sql
