import Verif.Api.FuncSpec
/-! Lemmas about `reflect` and signatures. -/
namespace Verif.Api

variable {S X : Type}

theorem assign_typed {v : RV X} {t : Ty} (h : Typed v t) : assign v t = some v := by
  obtain ⟨d, rfl⟩ := h
  simp [assign]

theorem assignAll_typed {vs : List (RV X)} {ts : List Ty} (h : AllTyped vs ts) :
    assignAll vs ts = some vs := by
  induction h with
  | nil => rfl
  | cons h _ ih => simp [assignAll, assign_typed h, ih]

theorem AllTyped.append {vs ws : List (RV X)} {ts us : List Ty} (h : AllTyped vs ts) (k : AllTyped ws us) :
    AllTyped (vs ++ ws) (ts ++ us) := by
  induction h with
  | nil => exact k
  | cons h _ ih => exact .cons h ih

theorem AllTyped.length {vs : List (RV X)} {ts : List Ty} (h : AllTyped vs ts) : vs.length = ts.length := by
  induction h with
  | nil => rfl
  | cons h _ ih => simp [ih]

theorem typed_zero (sys : Sys X) (t : Ty) : Typed (zeroOf sys t) t := by
  unfold zeroOf; split <;> exact ⟨_, rfl⟩

theorem zeros_typed (sys : Sys X) (ts : List Ty) : AllTyped (ts.map (zeroOf sys)) ts := by
  induction ts with
  | nil => exact .nil
  | cons t ts ih => exact .cons (typed_zero sys t) ih

theorem zeros_eq (g : Sig) (sys : Sys X) : g.zeros sys = g.results.map (zeroOf sys) := by
  unfold Sig.zeros
  refine List.map_congr_left fun t _ => ?_
  unfold zeroOf; cases t.iface <;> rfl

theorem assignAll_append {vs ws us xs : List (RV X)} {ts ss : List Ty} (h : assignAll vs ts = some us)
    (k : assignAll ws ss = some xs) : assignAll (vs ++ ws) (ts ++ ss) = some (us ++ xs) := by
  induction vs generalizing ts us with
  | nil =>
    cases ts with
    | nil => simp only [assignAll, Option.some.injEq] at h; subst h; exact k
    | cons t ts => simp [assignAll] at h
  | cons v vs ih =>
    cases ts with
    | nil => simp [assignAll] at h
    | cons t ts =>
      simp only [assignAll] at h
      split at h
      · rename_i w ws' e1 e2
        simp only [Option.some.injEq] at h
        subst h
        simp [assignAll, e1, ih e2]
      · cases h

theorem assign_error {e : Ty × X} (h : 0 ∈ e.1.methods) : assign (valueOf (some e)) errorTy = some (.mk errorTy (some e)) := by
  obtain ⟨t, x⟩ := e
  simp only [valueOf, assign]
  by_cases ht : t = errorTy
  · rw [if_pos ht, ht]
  · rw [if_neg ht]
    have : (errorTy.iface && t.implements errorTy) = true := by
      simp [errorTy, Ty.implements]; exact h
    rw [if_pos this]

theorem Sig.takesContext (g : Sig) (hp : g.Plain) : g.ft.takesContext = g.ctx := by
  obtain ⟨c, ps, rs, e⟩ := g
  cases c
  · have h := hp.noCtx rfl
    cases ps with
    | nil => rfl
    | cons t ts =>
      have : t ≠ contextTy := fun e => h (by simp [e])
      simp [FT.takesContext, Sig.ft, this]
  · simp [FT.takesContext, Sig.ft]

theorem Sig.hasError (g : Sig) (hp : g.Plain) : g.ft.hasError = g.err := by
  obtain ⟨c, ps, rs, e⟩ := g
  cases e
  · have h := hp.noErr rfl
    unfold FT.hasError
    simp only [Sig.ft, Bool.false_eq_true, if_false, List.append_nil]
    cases hl : rs.getLast? with
    | none => rfl
    | some t =>
      have := h t hl
      simp [Ty.implements, errorTy, this]
  · simp [FT.hasError, Sig.ft, Ty.implements, errorTy]

theorem Sig.numOut (g : Sig) (hp : g.Plain) : g.ft.outs.take g.ft.numOut = g.results := by
  unfold FT.numOut
  rw [g.hasError hp]
  obtain ⟨c, ps, rs, e⟩ := g
  cases e <;> simp [Sig.ft]

theorem Sig.assign_give (g : Sig) (rs : List (RV X)) (e : Dyn X) (h : AllTyped rs g.results) :
    AllTyped (g.give rs e) g.ft.outs := by
  unfold Sig.give Sig.ft
  refine h.append ?_
  cases g.err
  · exact .nil
  · exact .cons ⟨_, rfl⟩ .nil

theorem Sig.assign_pass (g : Sig) (c : Ty × X) (args : List (RV X)) (h : AllTyped args g.params) :
    AllTyped (g.pass c args) g.ft.ins := by
  unfold Sig.pass Sig.ft
  refine AllTyped.append ?_ h
  cases g.ctx
  · exact .nil
  · exact .cons ⟨_, rfl⟩ .nil

theorem Sig.lastZero (g : Sig) (sys : Sys X) (he : g.err = true) : lastZero sys g.ft = [.mk errorTy none] := by
  simp [Verif.Api.lastZero, Sig.ft, he, zeroOf, errorTy]

theorem split_plain (sys : Sys X) {args : List (RV X)} {ts : List Ty} (h : AllTyped args ts)
    (hn : ts.head? ≠ some contextTy) : splitArgs sys args = some (some sys.background, args) := by
  cases h with
  | nil => rfl
  | cons ht _ =>
    obtain ⟨d, rfl⟩ := ht
    rename_i t _ _ _
    have : ¬ (t = contextTy) := fun e => hn (by rw [List.head?_cons, e])
    simp [splitArgs, this]

theorem Sig.split_pass (g : Sig) (hp : g.Plain) (sys : Sys X) (c : Ty × X) (args : List (RV X))
    (h : AllTyped args g.params) :
    splitArgs sys (g.pass c args) = some (some (if g.ctx then c else sys.background), args) := by
  unfold Sig.pass
  cases hc : g.ctx
  · simp only [Bool.false_eq_true, if_false, List.nil_append]
    exact split_plain sys h (hp.noCtx hc)
  · simp [splitArgs]

/-- What `finish` returns passes through `MakeFunc`. -/
theorem finish_assigned (g : Sig) (hp : g.Plain) (sys : Sys X) (rs : Option (List (RV X))) (e : Dyn X)
    (hr : ∀ l, rs = some l → AllTyped l g.results) (he : ∀ c, e = some c → 0 ∈ c.1.methods) (s : S) :
    andThen (finish sys g.ft rs e) (fun rs => match assignAll rs g.ft.outs with
      | some rs => ret rs
      | none => die .runtime) s =
    match e, g.err with
    | some e, false => (.panic (.err e), s)
    | _, _ => (.ok (g.give (rs.getD (g.zeros sys)) e), s) := by
  have hz : AllTyped (rs.getD (g.zeros sys)) g.results := by
    cases rs with
    | some l => exact hr l rfl
    | none => rw [Option.getD_none, zeros_eq]; exact zeros_typed sys _
  have hrs : rs.getD ((g.ft.outs.take g.ft.numOut).map (zeroOf sys)) = rs.getD (g.zeros sys) := by
    rw [g.numOut hp, zeros_eq]
  unfold finish
  dsimp only
  rw [hrs, g.hasError hp]
  generalize rs.getD (g.zeros sys) = l at *
  cases hge : g.err with
  | false =>
    have ho : g.ft.outs = g.results := by simp [Sig.ft, hge]
    have hg : ∀ e : Dyn X, g.give l e = l := fun e => by simp [Sig.give, hge]
    cases e with
    | none => simp [andThen, ret, ho, assignAll_typed hz, hg]
    | some e => simp [andThen, die]
  | true =>
    have ho : g.ft.outs = g.results ++ [errorTy] := by simp [Sig.ft, hge]
    have hg : ∀ e : Dyn X, g.give l e = l ++ [.mk errorTy e] := fun e => by simp [Sig.give, hge]
    cases e with
    | none =>
      have hl : assignAll (l ++ [RV.mk errorTy none]) (g.results ++ [errorTy]) = some (l ++ [RV.mk errorTy none]) :=
        assignAll_typed (hz.append (.cons ⟨_, rfl⟩ .nil))
      simp [andThen, ret, ho, g.lastZero sys hge, hl, hg]
    | some e =>
      have hl := assignAll_append (assignAll_typed hz) (ws := [valueOf (some e)]) (ss := [errorTy])
        (xs := [.mk errorTy (some e)]) (by simp [assignAll, assign_error (he e rfl)])
      simp [andThen, ret, ho, hl, hg]

theorem makeGeneric_eq (g : Sig) (hp : g.Plain) (sys : Sys X) (f : Generic S X) (c : Ty × X) (args : List (RV X))
    (ha : AllTyped args g.params) (s : S) :
    makeGeneric sys g.ft f (g.pass c args) s =
      andThen (f (some (if g.ctx then c else sys.background)) args) (fun r =>
        andThen (finish sys g.ft r.1 r.2) (fun rs => match assignAll rs g.ft.outs with
          | some rs => ret rs
          | none => die .runtime)) s := by
  unfold makeGeneric makeFunc
  dsimp only
  rw [g.split_pass hp sys c args ha]
  simp only [andThen]
  cases f (some (if g.ctx then c else sys.background)) args s with
  | mk r s' => cases r <;> rfl

theorem reflectCall_typed (g : Sig) (sys : Sys X) (code : Code S X) (c : Ty × X)
    (hc : c.1.implements contextTy = true) (args : List (RV X)) (ha : AllTyped args g.params) :
    reflectCall sys g.ft code ((if g.ctx then [valueOf (some c)] else []) ++ args) = code (g.pass c args) := by
  have : callArgs sys g.ft ((if g.ctx then [valueOf (some c)] else []) ++ args) = some (g.pass c args) := by
    unfold callArgs
    have hv : g.ft.variadic = none := rfl
    rw [hv]
    dsimp only
    unfold Sig.pass Sig.ft
    dsimp only
    refine assignAll_append ?_ (assignAll_typed ha)
    cases g.ctx
    · rfl
    · obtain ⟨t, x⟩ := c
      dsimp only at hc
      simp only [if_true, assignAll, valueOf, assign]
      by_cases ht : t = contextTy
      · simp [ht]
      · simp [ht, hc]; simp [contextTy]
  unfold reflectCall
  rw [this]

end Verif.Api
