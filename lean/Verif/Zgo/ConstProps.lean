import Verif.Zgo.ConstSpec
import Mathlib.Data.List.Nodup
/-!
# zgo constant declarations: theorems (C205)
-/
namespace Verif.Zgo.Const

theorem checked_val {t n c} (h : checked t n = some c) : c.val = n ∧ c.type = t := by
  unfold checked at h
  cases t with
  | none => cases h; exact ⟨rfl, rfl⟩
  | some t =>
    dsimp only at h
    split at h
    · cases h; exact ⟨rfl, rfl⟩
    · cases h

theorem checked_holds {t n} (h : ∀ u, t = some u → Holds u n) : checked t n = some ⟨t, n⟩ := by
  unfold checked
  cases t with
  | none => rfl
  | some t => dsimp only; rw [if_pos (h t rfl)]

theorem convert_val {ty c c'} (h : goConvert ty c = some c') : c'.val = c.val := by
  unfold goConvert at h
  cases ty with
  | none => cases h; rfl
  | some t =>
    dsimp only at h
    split at h
    · exact (checked_val h).1
    · cases h

/-- Every constant of Go's environment is a constant of Zig's with the same value. -/
def Agree (ρ : Env) (ζ : ZEnv) : Prop := ∀ x c, ρ.lookup x = some c → ∃ t, ζ.lookup x = some (t, c.val)

theorem zig_untyped (ζ : ZEnv) : ∀ (e : E), e.hasRef = false → ∀ c, zigVal ζ e = some c → c.type = none := by
  intro e
  induction e with
  | lit n => intro _ c h; cases h; rfl
  | iota => intro _ c h; cases h
  | ref x => intro h; cases h
  | neg e ih =>
    intro hr c h
    simp only [zigVal, Option.bind_eq_some_iff] at h
    obtain ⟨a, h1, h2⟩ := h
    rw [(checked_val h2).2]; exact ih hr a h1
  | bin o l r ihl ihr =>
    intro hr c h
    simp only [E.hasRef, Bool.or_eq_false_iff] at hr
    simp only [zigVal, Option.bind_eq_some_iff] at h
    obtain ⟨a, h1, b, h2, t, h3, a', h4, b', h5, h6⟩ := h
    rw [(checked_val h6).2]
    rw [ihl hr.1 a h1, ihr hr.2 b h2] at h3
    cases h3; rfl
  | shl e k ih =>
    intro hr c h
    simp only [zigVal, Option.bind_eq_some_iff] at h
    obtain ⟨a, h1, h2⟩ := h
    rw [ih hr a h1] at h2
    cases h2; rfl
  | shr e k ih =>
    intro hr c h
    simp only [zigVal, Option.bind_eq_some_iff] at h
    obtain ⟨a, h1, h2⟩ := h
    rw [ih hr a h1] at h2
    cases h2; rfl

theorem val_agree {ρ : Env} {ζ : ZEnv} (hA : Agree ρ ζ) (i : Nat) : ∀ (e : E), e.literalShifts = true →
    ∀ a b, goVal ρ i e = some a → zigVal ζ e = some b → a.val = b.val := by
  intro e
  induction e with
  | lit n => intro _ a b h1 h2; cases h1; cases h2; rfl
  | iota => intro _ a b h1 h2; cases h2
  | ref x =>
    intro _ a b h1 h2
    obtain ⟨t, ht⟩ := hA x a h1
    simp only [zigVal, ht, Option.map_some, Option.some.injEq] at h2
    rw [← h2]
  | neg e ih =>
    intro hs a b h1 h2
    simp only [goVal, zigVal, Option.bind_eq_some_iff] at h1 h2
    obtain ⟨a', g1, g2⟩ := h1
    obtain ⟨b', k1, k2⟩ := h2
    rw [(checked_val g2).1, (checked_val k2).1, ih hs a' b' g1 k1]
  | bin o l r ihl ihr =>
    intro hs a b h1 h2
    simp only [E.literalShifts, Bool.and_eq_true] at hs
    simp only [goVal, zigVal, Option.bind_eq_some_iff] at h1 h2
    obtain ⟨a1, g1, a2, g2, t, g3, g4⟩ := h1
    obtain ⟨b1, k1, b2, k2, u, k3, b1', k4, b2', k5, k6⟩ := h2
    rw [(checked_val g4).1, (checked_val k6).1, (checked_val k4).1, (checked_val k5).1, ihl hs.1 _ _ g1 k1,
      ihr hs.2 _ _ g2 k2]
  | shl e k ih =>
    intro hs a b h1 h2
    simp only [E.literalShifts, Bool.not_eq_true'] at hs
    simp only [goVal, zigVal, Option.bind_eq_some_iff] at h1 h2
    obtain ⟨a', g1, g2⟩ := h1
    obtain ⟨b', k1, k2⟩ := h2
    rw [zig_untyped ζ e hs b' k1] at k2
    cases k2
    have hl : e.literalShifts = true := by
      clear ih g1 k1
      induction e with
      | lit | iota => rfl
      | ref x => rfl
      | neg e ih => exact ih hs
      | bin o l r i1 i2 =>
        simp only [E.hasRef, Bool.or_eq_false_iff] at hs
        simp [E.literalShifts, i1 hs.1, i2 hs.2]
      | shl e k ih => simp only [E.literalShifts]; simp only [E.hasRef] at hs; simp [hs]
      | shr e k ih => exact ih hs
    rw [(checked_val g2).1, ih hl a' b' g1 k1]
  | shr e k ih =>
    intro hs a b h1 h2
    simp only [goVal, zigVal, Option.bind_eq_some_iff] at h1 h2
    obtain ⟨a', g1, g2⟩ := h1
    obtain ⟨b', k1, k2⟩ := h2
    rw [(checked_val g2).1, ih hs a' b' g1 k1]
    cases ht : b'.type with
    | none => rw [ht] at k2; cases k2; rfl
    | some t =>
      rw [ht] at k2
      dsimp only at k2
      split at k2
      · cases k2; rfl
      · cases k2

theorem lookup_ne {α : Type} {y x : Name} (h : y ≠ x) (v : α) (l : List (Name × α)) : List.lookup y ((x, v) :: l) = l.lookup y := by
  have hb : (y == x) = false := by simpa using h
  rw [List.lookup_cons, hb]

theorem lookup_self {α : Type} (x : Name) (v : α) (l : List (Name × α)) : List.lookup x ((x, v) :: l) = some v := by
  simp [List.lookup_cons]

theorem lookup_snoc_ne {α : Type} {y x : Name} (h : y ≠ x) (v : α) (l : List (Name × α)) : List.lookup y (l ++ [(x, v)]) = l.lookup y := by
  rw [List.lookup_append, lookup_ne h, List.lookup_nil, Option.or_none]

theorem lookup_snoc_self {α : Type} {x : Name} {l : List (Name × α)} (h : l.lookup x = none) (v : α) :
    List.lookup x (l ++ [(x, v)]) = some v := by
  rw [List.lookup_append, lookup_self, h]; rfl

theorem lookup_mid_ne {α : Type} {y x : Name} (h : y ≠ x) (v : α) (l m : List (Name × α)) :
    List.lookup y (l ++ [(x, v)] ++ m) = List.lookup y (l ++ m) := by
  rw [List.lookup_append, lookup_snoc_ne h, List.lookup_append]

theorem lookup_mid_self {α : Type} {x : Name} {l : List (Name × α)} (h : l.lookup x = none) (v : α) (m : List (Name × α)) :
    List.lookup x (l ++ [(x, v)] ++ m) = some v := by
  rw [List.lookup_append, lookup_snoc_self h]; rfl

theorem goNames_dom {ρ : Env} {i ty} : ∀ (xs : List Name) (es : List E) (Δ : Env), goNames ρ i ty xs es = some Δ →
    ∀ x, x ∉ xs → Δ.lookup x = none := by
  intro xs
  induction xs with
  | nil =>
    intro es Δ h x _
    cases es with
    | nil => cases h; rfl
    | cons => cases h
  | cons y xs ih =>
    intro es Δ h x hx
    cases es with
    | nil => cases h
    | cons e es =>
      simp only [goNames, Option.bind_eq_some_iff, Option.map_eq_some_iff] at h
      obtain ⟨c, _, c', _, Δ', h3, rfl⟩ := h
      simp only [List.mem_cons, not_or] at hx
      rw [lookup_snoc_ne hx.1, ih es Δ' h3 x hx.2]

theorem names_agree {ρ : Env} {Γ : TEnv} {i ty} : ∀ (xs : List Name) (es : List E) (Δ : Env) (ds : List ZDecl) (Δt : TEnv)
    (rest : List ZDecl) (ζ ζ' : ZEnv), goNames ρ i ty xs es = some Δ → loadNames Γ ty xs es = some (ds, Δt) →
    zigDecls ζ (ds ++ rest) = some ζ' → Agree ρ ζ → xs.Nodup → (∀ x ∈ xs, ρ.lookup x = none) →
    (∀ e ∈ es, e.literalShifts = true) →
    ∃ ζ1, zigDecls ζ1 rest = some ζ' ∧ (∀ y, y ∉ xs → ζ1.lookup y = ζ.lookup y) ∧ Agree (Δ ++ ρ) ζ1 := by
  intro xs
  induction xs with
  | nil =>
    intro es Δ ds Δt rest ζ ζ' h1 h2 h3 hA _ _ _
    cases es with
    | nil => cases h1; cases h2; exact ⟨ζ, h3, fun _ _ => rfl, hA⟩
    | cons => cases h1
  | cons x xs ih =>
    intro es Δ ds Δt rest ζ ζ' h1 h2 h3 hA hn hf hs
    cases es with
    | nil => cases h1
    | cons e es =>
      simp only [goNames, Option.bind_eq_some_iff, Option.map_eq_some_iff] at h1
      obtain ⟨c, g1, c', g2, Δ', g3, rfl⟩ := h1
      rw [loadNames] at h2
      cases hl : loadNames Γ ty xs es with
      | none => rw [hl] at h2; cases h2
      | some p =>
        obtain ⟨ds', Δt'⟩ := p
        rw [hl] at h2
        cases h2
        simp only [List.cons_append, zigDecls, Option.bind_eq_some_iff] at h3
        obtain ⟨v, z1, v', z2, z3⟩ := h3
        have hv : v'.val = c'.val := by
          rw [(checked_val z2).1, convert_val g2]
          exact (val_agree hA i e (hs e (by simp)) c v g1 z1).symm
        have hx := hf x (by simp)
        have hA' : Agree ρ ((x, zigType (recorded Γ ty e), v'.val) :: ζ) := by
          intro y d hd
          have : y ≠ x := by rintro rfl; rw [hx] at hd; cases hd
          obtain ⟨t, ht⟩ := hA y d hd
          exact ⟨t, by rw [lookup_ne this, ht]⟩
        rw [List.nodup_cons] at hn
        obtain ⟨ζ1, k1, k2, k3⟩ := ih es Δ' ds' Δt' rest _ ζ' g3 hl z3 hA' hn.2
          (fun y hy => hf y (List.mem_cons_of_mem _ hy)) (fun e' he => hs e' (List.mem_cons_of_mem _ he))
        refine ⟨ζ1, k1, ?_, ?_⟩
        · intro y hy
          simp only [List.mem_cons, not_or] at hy
          rw [k2 y hy.2, lookup_ne hy.1]
        · intro y d hd
          by_cases hyx : y = x
          · subst hyx
            rw [lookup_mid_self (goNames_dom xs es Δ' g3 y hn.1)] at hd
            cases hd
            exact ⟨zigType (recorded Γ ty e), by rw [k2 y hn.1, lookup_self, hv]⟩
          · apply k3 y d
            rwa [lookup_mid_ne hyx] at hd

theorem group_agree : ∀ (ss : List Spec) (ρ : Env) (Γ : TEnv) (i : Nat) (last : Option ITy × List E) (env : Env)
    (ds : List ZDecl) (ζ ζ' : ZEnv), goGroup ρ i last ss = some env → load Γ ss = some ds → zigDecls ζ ds = some ζ' →
    Agree ρ ζ → (ss.flatMap Spec.names).Nodup → (∀ x ∈ ss.flatMap Spec.names, ρ.lookup x = none) →
    (∀ s ∈ ss, ∀ e ∈ s.values, e.literalShifts = true) → Agree env ζ' := by
  intro ss
  induction ss with
  | nil =>
    intro ρ Γ i last env ds ζ ζ' h1 h2 h3 hA _ _ _
    cases h1; cases h2; cases h3; exact hA
  | cons s ss ih =>
    intro ρ Γ i last env ds ζ ζ' h1 h2 h3 hA hn hf hs
    rw [load] at h2
    cases hl : loadNames Γ s.type s.names s.values with
    | none => rw [hl] at h2; cases h2
    | some p =>
    obtain ⟨ds1, Δt⟩ := p
    rw [hl] at h2
    dsimp only at h2
    cases hl2 : load (Δt ++ Γ) ss with
    | none => rw [hl2] at h2; cases h2
    | some ds2 =>
    rw [hl2] at h2
    cases h2
    simp only [goGroup, Option.bind_eq_some_iff] at h1
    obtain ⟨Δ, g1, g2⟩ := h1
    simp only [List.flatMap_cons, List.nodup_append] at hn
    simp only [List.flatMap_cons, List.mem_append] at hf
    have key : ∃ ζ1, zigDecls ζ1 ds2 = some ζ' ∧ Agree (Δ ++ ρ) ζ1 ∧ ∀ x, x ∉ s.names → Δ.lookup x = none := by
      by_cases hv : s.values = [] ∧ s.type = none
      · cases hx : s.names with
        | nil =>
          rw [if_pos hv] at g1
          rw [hx] at g1 hl
          cases hl
          cases last with
          | mk lt le =>
            cases le with
            | nil => cases g1; exact ⟨ζ, h3, hA, fun _ _ => rfl⟩
            | cons => cases g1
        | cons x xs => rw [hx, hv.1] at hl; cases hl
      · rw [if_neg hv] at g1
        obtain ⟨ζ1, k1, _, k3⟩ := names_agree s.names s.values Δ ds1 Δt ds2 ζ ζ' g1 hl h3 hA hn.1
          (fun x hx => hf x (Or.inl hx)) (hs s (by simp))
        exact ⟨ζ1, k1, k3, goNames_dom _ _ _ g1⟩
    obtain ⟨ζ1, k1, k2, k3⟩ := key
    refine ih (Δ ++ ρ) (Δt ++ Γ) _ _ env ds2 ζ1 ζ' g2 hl2 k1 k2 hn.2.1 ?_ (fun s' h => hs s' (List.mem_cons_of_mem _ h))
    intro x hx
    rw [List.lookup_append, hf x (Or.inr hx), k3 x (fun h => hn.2.2 x h x hx rfl)]
    rfl

/-- C205, constants: whatever the declaration, if the compiler and Zig accept it, every constant has the value Go gives it,
provided that no constant is shifted to the left (for which it is false, `shift_fails`). -/
theorem constants_partial (ss : List Spec) (env : Env) (hgo : goConsts ss = some env) (hn : (ss.flatMap Spec.names).Nodup)
    (hs : ∀ s ∈ ss, ∀ e ∈ s.values, e.literalShifts = true) (ds : List ZDecl) (hl : load [] ss = some ds)
    (zenv : ZEnv) (hz : zigDecls [] ds = some zenv) (x : Name) (c : Cst) (hx : env.lookup x = some c) :
    ∃ t, zenv.lookup x = some (t, c.val) :=
  group_agree ss [] [] 0 (none, []) env ds [] zenv hgo hl hz (fun x c h => by cases h) hn (fun x _ => rfl) hs x c hx

/-! ### When declarations are accepted -/

/-- The types known to the type checker are those of the constants. -/
def Typed (ρ : Env) (Γ : TEnv) : Prop := ∀ x c, ρ.lookup x = some c → Γ.lookup x = some c.type

theorem exprType_go {ρ : Env} {Γ : TEnv} (hT : Typed ρ Γ) (i : Nat) : ∀ (e : E) (c : Cst), goVal ρ i e = some c → exprType Γ e = c.type := by
  intro e
  induction e with
  | lit n => intro c h; cases h; rfl
  | iota => intro c h; cases h; rfl
  | ref x => intro c h; rw [exprType, hT x c h]; rfl
  | neg e ih =>
    intro c h
    simp only [goVal, Option.bind_eq_some_iff] at h
    obtain ⟨a, h1, h2⟩ := h
    rw [(checked_val h2).2, exprType, ih a h1]
  | shl e k ih =>
    intro c h
    simp only [goVal, Option.bind_eq_some_iff] at h
    obtain ⟨a, h1, h2⟩ := h
    rw [(checked_val h2).2, exprType, ih a h1]
  | shr e k ih =>
    intro c h
    simp only [goVal, Option.bind_eq_some_iff] at h
    obtain ⟨a, h1, h2⟩ := h
    rw [(checked_val h2).2, exprType, ih a h1]
  | bin o l r ihl ihr =>
    intro c h
    simp only [goVal, Option.bind_eq_some_iff] at h
    obtain ⟨a, h1, b, h2, t, h3, h4⟩ := h
    rw [(checked_val h4).2, exprType, ihl a h1, ihr b h2]
    revert h3
    cases a.type <;> cases b.type <;> simp [common]

theorem recorded_go {ρ : Env} {Γ : TEnv} (hT : Typed ρ Γ) {i ty e c c'} (h : goVal ρ i e = some c) (h' : goConvert ty c = some c') :
    recorded Γ ty e = c'.type := by
  unfold recorded
  cases ty with
  | none => cases h'; exact exprType_go hT i e _ h
  | some t =>
    unfold goConvert at h'
    dsimp only at h'
    split at h'
    · rw [(checked_val h').2]; rfl
    · cases h'

/-- As `Agree`, with the type Zig has for the constant. -/
def AgreeT (ρ : Env) (ζ : ZEnv) : Prop := ∀ x c, ρ.lookup x = some c → ζ.lookup x = some (asInt c.type, c.val)

theorem goVal_no_iota {ρ : Env} {t} (i j : Nat) : ∀ (e : E), Uniform ρ t e → goVal ρ i e = goVal ρ j e := by
  intro e
  induction e with
  | lit n => intro _; rfl
  | iota => intro h; cases h
  | ref x => intro _; rfl
  | neg e ih => intro h; simp only [goVal, ih h.1]
  | shl e k ih => intro h; simp only [goVal, ih h.1]
  | shr e k ih => intro h; simp only [goVal, ih h.1]
  | bin o l r ihl ihr => intro h; simp only [goVal, ihl h.1, ihr h.2.1]

theorem uniform_zig {ρ : Env} {ζ : ZEnv} (hA : AgreeT ρ ζ) {t : ITy} : ∀ (e : E), Uniform ρ t e → ∀ c, goVal ρ 0 e = some c →
    Holds t c.val ∧ ∃ z, zigVal ζ e = some z ∧ z.val = c.val ∧ (z.type = none ∨ z.type = some t) := by
  intro e
  induction e with
  | lit n => intro h c hc; cases hc; exact ⟨h, _, rfl, rfl, Or.inl rfl⟩
  | iota => intro h; cases h
  | ref x =>
    rintro ⟨d, h1, h2, h3⟩ c hc
    rw [goVal, h1] at hc
    cases hc
    refine ⟨h3, ⟨some (asInt d.type), d.val⟩, ?_, rfl, ?_⟩
    · rw [zigVal, hA x d h1]; rfl
    · right; rw [h2]
  | neg e ih =>
    rintro ⟨h1, h2⟩ c hc
    simp only [goVal, Option.bind_eq_some_iff] at hc
    obtain ⟨a, g1, g2⟩ := hc
    obtain ⟨_, z, z1, z2, z3⟩ := ih h1 a g1
    have hh := h2 a g1
    rw [(checked_val g2).1]
    refine ⟨hh, ⟨z.type, -a.val⟩, ?_, rfl, z3⟩
    rw [zigVal, z1, Option.bind_some, z2]
    apply checked_holds
    intro u hu
    rcases z3 with z3 | z3 <;> rw [z3] at hu <;> cases hu
    exact hh
  | bin o l r ihl ihr =>
    rintro ⟨h1, h2, h3⟩ c hc
    simp only [goVal, Option.bind_eq_some_iff] at hc
    obtain ⟨a, g1, b, g2, u, g3, g4⟩ := hc
    obtain ⟨ha, z, z1, z2, z3⟩ := ihl h1 a g1
    obtain ⟨hb, y, y1, y2, y3⟩ := ihr h2 b g2
    have hh := h3 a b g1 g2
    rw [(checked_val g4).1]
    obtain ⟨w, hw, hw'⟩ : ∃ w, peer z.type y.type = some w ∧ (w = none ∨ w = some t) := by
      rcases z3 with z3 | z3 <;> rcases y3 with y3 | y3 <;> rw [z3, y3]
      · exact ⟨none, rfl, Or.inl rfl⟩
      · exact ⟨some t, rfl, Or.inr rfl⟩
      · exact ⟨some t, rfl, Or.inr rfl⟩
      · exact ⟨some t, by simp [peer], Or.inr rfl⟩
    have holds : ∀ n, Holds t n → checked w n = some ⟨w, n⟩ := by
      intro n hn
      apply checked_holds
      intro v hv
      rcases hw' with e | e <;> rw [e] at hv <;> cases hv
      exact hn
    refine ⟨hh, ⟨w, o.on a.val b.val⟩, ?_, rfl, hw'⟩
    rw [zigVal, z1, y1, Option.bind_some, Option.bind_some, hw, Option.bind_some, z2, y2, holds _ ha, Option.bind_some,
      holds _ hb, Option.bind_some, holds _ hh]
  | shl e k ih =>
    rintro ⟨h1, h2, h3⟩ c hc
    simp only [goVal, Option.bind_eq_some_iff] at hc
    obtain ⟨a, g1, g2⟩ := hc
    obtain ⟨_, z, z1, z2, z3⟩ := ih h1 a g1
    have hh := h3 a g1
    rw [(checked_val g2).1]
    refine ⟨hh, ⟨none, a.val * 2 ^ k⟩, ?_, rfl, Or.inl rfl⟩
    rw [zigVal, z1, Option.bind_some, zig_untyped ζ e h2 z z1, z2]
  | shr e k ih =>
    rintro ⟨h1, h2, h3⟩ c hc
    simp only [goVal, Option.bind_eq_some_iff] at hc
    obtain ⟨a, g1, g2⟩ := hc
    obtain ⟨_, z, z1, z2, z3⟩ := ih h1 a g1
    have hh := h3 a g1
    rw [(checked_val g2).1]
    refine ⟨hh, ⟨z.type, a.val / 2 ^ k⟩, ?_, rfl, z3⟩
    rw [zigVal, z1, Option.bind_some]
    rcases z3 with z3 | z3 <;> rw [z3]
    · dsimp only; rw [z2]
    · dsimp only; rw [if_pos h2, z2]

theorem names_compile {ρ : Env} {Γ : TEnv} {ty} (hT : Typed ρ Γ) : ∀ (xs : List Name) (es : List E) (Δ : Env) (ζ : ZEnv),
    goNames ρ 0 ty xs es = some Δ → AgreeT ρ ζ → xs.Nodup → (∀ x ∈ xs, ρ.lookup x = none) →
    (∀ e ∈ es, (∃ t, Uniform ρ t e) ∧ ∀ c c', goVal ρ 0 e = some c → goConvert ty c = some c' → Holds (asInt c'.type) c'.val) →
    ∃ ds Δt ζ1, loadNames Γ ty xs es = some (ds, Δt) ∧ (∀ rest, zigDecls ζ (ds ++ rest) = zigDecls ζ1 rest) ∧
      (∀ y, y ∉ xs → ζ1.lookup y = ζ.lookup y) ∧ AgreeT (Δ ++ ρ) ζ1 ∧ Typed (Δ ++ ρ) (Δt ++ Γ) ∧
      (∀ y, y ∉ xs → Δt.lookup y = none) := by
  intro xs
  induction xs with
  | nil =>
    intro es Δ ζ h1 hA _ _ _
    cases es with
    | nil => cases h1; exact ⟨[], [], ζ, rfl, fun _ => rfl, fun _ _ => rfl, hA, hT, fun _ _ => rfl⟩
    | cons => cases h1
  | cons x xs ih =>
    intro es Δ ζ h1 hA hn hf hs
    cases es with
    | nil => cases h1
    | cons e es =>
      simp only [goNames, Option.bind_eq_some_iff, Option.map_eq_some_iff] at h1
      obtain ⟨c, g1, c', g2, Δ', g3, rfl⟩ := h1
      obtain ⟨⟨t, hu⟩, hh⟩ := hs e (by simp)
      obtain ⟨_, z, z1, z2, _⟩ := uniform_zig hA e hu c g1
      have hx := hf x (by simp)
      have hr := recorded_go hT g1 g2
      have hz : zigType (recorded Γ ty e) = asInt c'.type := by rw [hr]; cases c'.type <;> rfl
      have hA' : AgreeT ρ ((x, asInt c'.type, c'.val) :: ζ) := by
        intro y d hd
        have : y ≠ x := by rintro rfl; rw [hx] at hd; cases hd
        rw [lookup_ne this, hA y d hd]
      rw [List.nodup_cons] at hn
      obtain ⟨ds, Δt, ζ1, k1, k2, k3, k4, k5, k6⟩ := ih es Δ' _ g3 hA' hn.2
        (fun y hy => hf y (List.mem_cons_of_mem _ hy)) (fun e' he => hs e' (List.mem_cons_of_mem _ he))
      refine ⟨⟨x, asInt c'.type, e⟩ :: ds, Δt ++ [(x, c'.type)], ζ1, ?_, ?_, ?_, ?_, ?_, ?_⟩
      · rw [loadNames, k1]; dsimp only; rw [hz, hr]
      · intro rest
        rw [List.cons_append, zigDecls]
        dsimp only
        rw [z1, Option.bind_some, z2, ← convert_val g2, checked_holds (fun u hu => by cases hu; exact hh c c' g1 g2),
          Option.bind_some]
        exact k2 rest
      · intro y hy
        simp only [List.mem_cons, not_or] at hy
        rw [k3 y hy.2, lookup_ne hy.1]
      · intro y d hd
        by_cases hyx : y = x
        · subst hyx
          rw [lookup_mid_self (goNames_dom xs es Δ' g3 y hn.1)] at hd
          cases hd
          rw [k3 y hn.1, lookup_self]
        · apply k4 y d
          rwa [lookup_mid_ne hyx] at hd
      · intro y d hd
        by_cases hyx : y = x
        · subst hyx
          rw [lookup_mid_self (goNames_dom xs es Δ' g3 y hn.1)] at hd
          cases hd
          rw [lookup_mid_self (k6 y hn.1)]
        · rw [lookup_mid_ne hyx] at hd ⊢
          exact k5 y d hd
      · intro y hy
        simp only [List.mem_cons, not_or] at hy
        rw [lookup_snoc_ne hy.1, k6 y hy.2]

theorem goNames_no_iota {ρ : Env} {ty} (i : Nat) : ∀ (xs : List Name) (es : List E), (∀ e ∈ es, ∃ t, Uniform ρ t e) →
    goNames ρ i ty xs es = goNames ρ 0 ty xs es := by
  intro xs
  induction xs with
  | nil => intro es _; cases es <;> rfl
  | cons x xs ih =>
    intro es h
    cases es with
    | nil => rfl
    | cons e es =>
      obtain ⟨t, ht⟩ := h e (by simp)
      simp only [goNames, goVal_no_iota i 0 e ht, ih es (fun e' he => h e' (List.mem_cons_of_mem _ he))]

theorem group_compile : ∀ (ss : List Spec) (ρ : Env) (Γ : TEnv) (i : Nat) (last : Option ITy × List E) (env : Env) (ζ : ZEnv),
    goGroup ρ i last ss = some env → Typed ρ Γ → AgreeT ρ ζ → (ss.flatMap Spec.names).Nodup →
    (∀ x ∈ ss.flatMap Spec.names, ρ.lookup x = none) → Modest ρ ss →
    ∃ ds ζ', load Γ ss = some ds ∧ zigDecls ζ ds = some ζ' ∧ AgreeT env ζ' := by
  intro ss
  induction ss with
  | nil =>
    intro ρ Γ i last env ζ h1 _ hA _ _ _
    cases h1; exact ⟨[], ζ, rfl, rfl, hA⟩
  | cons s ss ih =>
    intro ρ Γ i last env ζ h1 hT hA hn hf hm
    obtain ⟨m1, m2, m3⟩ := hm
    simp only [goGroup, Option.bind_eq_some_iff] at h1
    obtain ⟨Δ, g1, g2⟩ := h1
    rw [if_neg (fun h => m1 h.1)] at g1 g2
    dsimp only at g1
    rw [goNames_no_iota i s.names s.values (fun e he => (m2 e he).1)] at g1
    simp only [List.flatMap_cons, List.nodup_append] at hn
    simp only [List.flatMap_cons, List.mem_append] at hf
    obtain ⟨ds, Δt, ζ1, k1, k2, _, k4, k5, _⟩ := names_compile hT s.names s.values Δ ζ g1 hA hn.1 (fun x hx => hf x (Or.inl hx)) m2
    obtain ⟨ds', ζ', j1, j2, j3⟩ := ih (Δ ++ ρ) (Δt ++ Γ) _ _ env ζ1 g2 k5 k4 hn.2.1 (by
      intro x hx
      rw [List.lookup_append, hf x (Or.inr hx), goNames_dom _ _ _ g1 x (fun h => hn.2.2 x h x hx rfl)]
      rfl) (m3 Δ g1)
    refine ⟨ds ++ ds', ζ', ?_, ?_, j3⟩
    · rw [load, k1]; dsimp only; rw [j1]
    · rw [k2, j2]

/-- C205, constants: a declaration whose specifications all have their own values, that does without `iota` and stays within
one integer type per expression, is accepted, and every constant has the value Go gives it, with `int` for untyped ones.
Missing: implicit repetition (`repetition_panics`), `iota` (`iota_refused`) and untyped constants that `int` does not hold
(`large_untyped_fails`, `shift_fails`). -/
theorem constants_compile_partial (ss : List Spec) (env : Env) (hgo : goConsts ss = some env)
    (hn : (ss.flatMap Spec.names).Nodup) (hm : Modest [] ss) :
    ∃ ds zenv, load [] ss = some ds ∧ zigDecls [] ds = some zenv ∧
      ∀ x c, env.lookup x = some c → zenv.lookup x = some (asInt c.type, c.val) :=
  group_compile ss [] [] 0 (none, []) env [] hgo (fun x c h => by cases h) (fun x c h => by cases h) hn (fun x _ => rfl) hm

/-- `const (a = 5; b, c int8 = a + 1, -2 << 3; d = c)` meets the hypotheses. -/
def sample : List Spec :=
  [⟨[0], none, [.lit 5]⟩, ⟨[1, 2], some ⟨true, 8⟩, [.bin .add (.ref 0) (.lit 1), .shl (.neg (.lit 2)) 3]⟩, ⟨[3], none, [.ref 2]⟩]

/-- The constants of `sample`. -/
def sampleEnv : Env :=
  [(3, ⟨some ⟨true, 8⟩, -16⟩), (2, ⟨some ⟨true, 8⟩, -16⟩), (1, ⟨some ⟨true, 8⟩, 6⟩), (0, ⟨none, 5⟩)]

example : ∃ ds zenv, load [] sample = some ds ∧ zigDecls [] ds = some zenv ∧
    ∀ x c, sampleEnv.lookup x = some c → zenv.lookup x = some (asInt c.type, c.val) := by
  refine constants_compile_partial sample sampleEnv (by decide) (by decide) ?_
  refine ⟨by decide, ?_, ?_⟩
  · intro e he
    simp only [List.mem_cons, List.not_mem_nil, or_false] at he
    subst he
    refine ⟨⟨⟨true, 64⟩, by unfold Uniform; decide⟩, ?_⟩
    intro c c' h1 h2
    cases h1; cases h2; decide
  intro Δ hΔ
  have : Δ = [(0, ⟨none, 5⟩)] := by revert hΔ; simp [goNames, goVal, goConvert, eq_comm]
  subst this
  refine ⟨by decide, ?_, ?_⟩
  · intro e he
    simp only [List.mem_cons, List.not_mem_nil, or_false] at he
    rcases he with rfl | rfl
    · refine ⟨⟨⟨true, 64⟩, ⟨⟨none, 5⟩, rfl, rfl, by decide⟩, by unfold Uniform; decide, ?_⟩, ?_⟩
      · intro a b h1 h2; cases h1; cases h2; decide
      · intro c c' h1 h2
        cases h1; cases h2; decide
    · refine ⟨⟨⟨true, 64⟩, ⟨by unfold Uniform; decide, ?_⟩, rfl, ?_⟩, ?_⟩
      · intro c h; cases h; decide
      · intro c h; cases h; decide
      · intro c c' h1 h2
        cases h1; cases h2; decide
  intro Δ hΔ
  have : Δ = [(2, ⟨some ⟨true, 8⟩, -16⟩), (1, ⟨some ⟨true, 8⟩, 6⟩)] := by
    have e : goNames [(0, ⟨none, 5⟩)] 0 (some ⟨true, 8⟩) [1, 2] [.bin .add (.ref 0) (.lit 1), .shl (.neg (.lit 2)) 3] =
      some [(2, ⟨some ⟨true, 8⟩, -16⟩), (1, ⟨some ⟨true, 8⟩, 6⟩)] := by decide
    exact (Option.some.inj (hΔ.symm.trans e))
  subst this
  refine ⟨by decide, ?_, fun _ _ => trivial⟩
  intro e he
  simp only [List.mem_cons, List.not_mem_nil, or_false] at he
  subst he
  refine ⟨⟨⟨true, 8⟩, ⟨some ⟨true, 8⟩, -16⟩, rfl, rfl, by decide⟩, ?_⟩
  intro c c' h1 h2
  cases h1; cases h2; decide

/-! ### What is refused -/

theorem load_append_none : ∀ (ss : List Spec) (Γ : TEnv) (s : Spec) (rest : List Spec), s.names ≠ [] → s.values = [] →
    load Γ (ss ++ s :: rest) = none := by
  intro ss
  induction ss with
  | nil =>
    intro Γ s rest h1 h2
    cases hx : s.names with
    | nil => exact absurd hx h1
    | cons x xs => rw [List.nil_append, load, hx, h2]; rfl
  | cons s' ss ih =>
    intro Γ s rest h1 h2
    rw [List.cons_append, load]
    cases loadNames Γ s'.type s'.names s'.values with
    | none => rfl
    | some p => dsimp only; rw [ih _ s rest h1 h2]

/-- C205 fails for every declaration with an implicit repetition: the compiler panics. -/
theorem repetition_panics (before rest : List Spec) (s : Spec) (h1 : s.names ≠ []) (h2 : s.values = []) :
    load [] (before ++ s :: rest) = none := load_append_none before [] s rest h1 h2

/-- Such declarations are Go: `const (a = 7; b)` declares two constants of the value 7. -/
example : goConsts [⟨[0], none, [.lit 7]⟩, ⟨[1], none, []⟩] = some [(1, ⟨none, 7⟩), (0, ⟨none, 7⟩)] ∧
    load [] [⟨[0], none, [.lit 7]⟩, ⟨[1], none, []⟩] = none := by decide

theorem zig_iota (ζ : ZEnv) : ∀ (e : E), e.hasIota = true → zigVal ζ e = none := by
  intro e
  induction e with
  | iota => intro _; rfl
  | lit | ref => intro h; cases h
  | neg e ih => intro h; simp only [zigVal, ih h]; rfl
  | shl e k ih => intro h; simp only [zigVal, ih h]; rfl
  | shr e k ih => intro h; simp only [zigVal, ih h]; rfl
  | bin o l r ihl ihr =>
    intro h
    simp only [E.hasIota, Bool.or_eq_true] at h
    rcases h with h | h
    · simp only [zigVal, ihl h]; rfl
    · simp only [zigVal, ihr h]; cases zigVal ζ l <;> rfl

theorem zigDecls_none : ∀ (ds : List ZDecl) (ζ : ZEnv) (d : ZDecl), d ∈ ds → d.value.hasIota = true → zigDecls ζ ds = none := by
  intro ds
  induction ds with
  | nil => intro ζ d h; cases h
  | cons a ds ih =>
    intro ζ d h hi
    rw [zigDecls]
    rcases List.mem_cons.mp h with rfl | h
    · rw [zig_iota ζ _ hi]; rfl
    · cases zigVal ζ a.value with
      | none => rfl
      | some v =>
        rw [Option.bind_some]
        cases checked (some a.type) v.val with
        | none => rfl
        | some v' => rw [Option.bind_some]; exact ih _ d h hi

/-- C205 fails for every declaration that uses `iota`: it is written as a name, which Zig does not know. -/
theorem iota_refused (ss : List Spec) (ds : List ZDecl) (hl : load [] ss = some ds) (d : ZDecl) (hd : d ∈ ds)
    (hi : d.value.hasIota = true) : zigDecls [] ds = none := zigDecls_none ds [] d hd hi

/-- `const (a = iota)`. -/
example : goConsts [⟨[0], none, [.iota]⟩] = some [(0, ⟨none, 0⟩)] ∧ load [] [⟨[0], none, [.iota]⟩] = some [⟨0, ⟨true, 64⟩, .iota⟩] := by
  decide

/-- C205 fails for untyped constants that `int` does not hold: `const (a = 1 << 64; b = a >> 60)` makes `b` 16 in Go, and is
refused by Zig. -/
theorem large_untyped_fails : goConsts [⟨[0], none, [.shl (.lit 1) 64]⟩, ⟨[1], none, [.shr (.ref 0) 60]⟩] =
      some [(1, ⟨none, 16⟩), (0, ⟨none, 2 ^ 64⟩)] ∧
    ∃ ds, load [] [⟨[0], none, [.shl (.lit 1) 64]⟩, ⟨[1], none, [.shr (.ref 0) 60]⟩] = some ds ∧ zigDecls [] ds = none :=
  ⟨by decide, [⟨0, ⟨true, 64⟩, .shl (.lit 1) 64⟩, ⟨1, ⟨true, 64⟩, .shr (.ref 0) 60⟩], by decide, by decide⟩

/-- C205 fails silently when a constant is shifted out of `int`: `const (a = 3; b = a << 63; c = b >> 62)` makes `c` 6 in Go
and -2 in Zig. -/
theorem shift_fails : ∃ ss env ds zenv, goConsts ss = some env ∧ load [] ss = some ds ∧ zigDecls [] ds = some zenv ∧
    env.lookup 2 = some ⟨none, 6⟩ ∧ zenv.lookup 2 = some (⟨true, 64⟩, -2) :=
  ⟨[⟨[0], none, [.lit 3]⟩, ⟨[1], none, [.shl (.ref 0) 63]⟩, ⟨[2], none, [.shr (.ref 1) 62]⟩],
    [(2, ⟨none, 6⟩), (1, ⟨none, 3 * 2 ^ 63⟩), (0, ⟨none, 3⟩)],
    [⟨0, ⟨true, 64⟩, .lit 3⟩, ⟨1, ⟨true, 64⟩, .shl (.ref 0) 63⟩, ⟨2, ⟨true, 64⟩, .shr (.ref 1) 62⟩],
    [(2, ⟨true, 64⟩, -2), (1, ⟨true, 64⟩, -(2 ^ 63)), (0, ⟨true, 64⟩, 3)],
    by decide, by decide, by decide, by decide, by decide⟩

/-! ### Variables -/

/-- C205, variables: names with a value each get it, names without any values get none. -/
theorem vars_partial {α : Type} (xs : List Name) (es : List α) :
    (es.length = xs.length → xs ≠ [] → loadVars xs es = some (xs.zip (es.map some))) ∧
    loadVars xs ([] : List α) = some (xs.map fun x => (x, none)) := by
  refine ⟨?_, by cases xs <;> rfl⟩
  induction xs generalizing es with
  | nil => intro _ h; exact absurd rfl h
  | cons x xs ih =>
    intro hl _
    match xs, es, hl with
    | [], [e], _ => rfl
    | y :: xs, e :: e' :: es, hl =>
      rw [loadVars, ih (e' :: es) (by simpa using hl) (by simp)]
      rfl

/-- C205 fails for every declaration of several variables by one call, `var a, b = f()`: the compiler panics. -/
theorem var_call_panics {α : Type} (x y : Name) (xs : List Name) (call : α) : loadVars (x :: y :: xs) [call] = none := rfl

example : loadVars [1, 2, 3] ['a', 'b', 'c'] = some [(1, some 'a'), (2, some 'b'), (3, some 'c')] := by decide

end Verif.Zgo.Const
