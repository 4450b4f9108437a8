import Verif.Api.FuncLemmas
/-!
# Properties of the functions of an API (C133-C138)
-/
namespace Verif.Api

variable {S X : Type}

/-! ## A small program for the examples -/

/-- Values of the examples. -/
inductive X0 where
  | n (k : Nat)
  | anys (l : Option (List (Option (Ty × X0))))
  | other

/-- The program of the examples; slices other than `[]any` are not looked into. -/
def sys0 : Sys X0 where
  zero t := if t = anysTy then .anys none else .n 0
  packAnys := .anys
  unpackAnys | .anys l => l | _ => none
  packValues _ := .other
  unpackValues _ := none
  packSlice l := .anys (some l)
  background := (⟨false, 50, [1]⟩, .n 50)
  notImplemented := (⟨false, 51, [0]⟩, .n 51)
  wrongType := (⟨false, 52, [0]⟩, .n 52)
  reader := (⟨false, 53, [2, 3]⟩, .n 53)

theorem sys0_lawful : sys0.Lawful := ⟨rfl⟩

/-- `int`. -/
def intTy : Ty := ⟨false, 10, []⟩
/-- `struct{}` with a method `Error() string`, as `api.Error` types are. -/
def errStructTy : Ty := ⟨false, 11, [0]⟩
/-- An int. -/
def int (k : Nat) : RV X0 := .mk intTy (some (intTy, .n k))
/-- An error made with `errors.New`. -/
def boom : Ty × X0 := (⟨false, 12, [0]⟩, .n 13)
/-- A context. -/
def ctx0 : Ty × X0 := (⟨false, 14, [1]⟩, .n 15)
/-- `func(context.Context, int) (int, error)`. -/
def sig0 : Sig := ⟨true, [intTy], [intTy], true⟩
theorem sig0_plain : sig0.Plain := ⟨by decide, by decide⟩
/-- `func() int`. -/
def sig1 : Sig := ⟨false, [], [intTy], false⟩
theorem sig1_plain : sig1.Plain := ⟨by decide, by intro _ t h; cases h; decide⟩

/-! ## C133: a function made with a generic implementation -/

/-- C133 (`_partial`: the error of the function must be declared as `error`, its context and its arguments not nil where
their types forbid it, and its results must be given with their types). The caller of a function made with a generic
implementation gets what the implementation returns: it is called once, with the context of the caller (the background
if the function takes none) and the other arguments; its results are returned, zero values if it returns nil; its
error is the last result, and a function without error result panics with it. -/
theorem generic_partial (sys : Sys X) (g : Sig) (hp : g.Plain) (f : Generic S X) (c : Ty × X)
    (args : List (RV X)) (ha : AllTyped args g.params) (s s' : S) (r : Res X (Option (List (RV X)) × Dyn X))
    (hf : f (some (if g.ctx then c else sys.background)) args s = (r, s'))
    (hr : ∀ rs e, r = .ok (rs, e) → (∀ l, rs = some l → AllTyped l g.results) ∧
      (∀ x, e = some x → 0 ∈ x.1.methods)) :
    invoke (make sys g.ft (.generic f)) (g.pass c args) s =
      match (generalizing := false) r with
      | .panic p => (.panic p, s')
      | .ok (rs, none) => (.ok (g.give (rs.getD (g.zeros sys)) none), s')
      | .ok (rs, some e) =>
        if g.err then (.ok (g.give (rs.getD (g.zeros sys)) (some e)), s') else (.panic (.err e), s') := by
  show makeGeneric sys g.ft f (g.pass c args) s = _
  rw [makeGeneric_eq g hp sys f c args ha s]
  simp only [andThen]
  rw [hf]
  cases r with
  | panic p => rfl
  | ok a =>
    obtain ⟨rs, e⟩ := a
    obtain ⟨h1, h2⟩ := hr rs e rfl
    have := finish_assigned (S := S) g hp sys rs e h1 h2 s'
    simp only [andThen] at this
    rw [this]
    cases e with
    | none => rfl
    | some e => cases g.err <;> rfl

example : invoke (make sys0 sig0.ft (.generic (S := List Nat) fun _ _ s => (.ok (none, some boom), 7 :: s)))
    (sig0.pass ctx0 [int 4]) [] = (.ok [int 0, .mk errorTy (some boom)], [7]) :=
  generic_partial sys0 sig0 sig0_plain _ ctx0 [int 4] (.cons ⟨_, rfl⟩ .nil) [] [7] (.ok (none, some boom)) rfl
    (fun rs e h => by
      cases h
      exact ⟨nofun, fun x h => by cases h; decide⟩)

/-- The values that the arguments hold, as interfaces. -/
def asInterfaces : List (RV X) → List (Dyn X)
  | [] => []
  | .mk _ d :: vs => d :: asInterfaces vs
  | .invalid :: vs => none :: asInterfaces vs

/-- `Fits cs ts`: the values can be results of those types: each is of the type, or of one with all methods of the
interface the type is. -/
inductive Fits : List (Ty × X) → List Ty → Prop where
  | nil : Fits [] []
  | cons {c : Ty × X} {t : Ty} {cs : List (Ty × X)} {ts : List Ty}
    (h : c.1 = t ∨ (t.iface = true ∧ ∀ m ∈ t.methods, m ∈ c.1.methods)) (hs : Fits cs ts) : Fits (c :: cs) (t :: ts)

/-- The values as results of those types. -/
def results : List (Ty × X) → List Ty → List (RV X)
  | c :: cs, t :: ts => .mk t (some c) :: results cs ts
  | _, _ => []

theorem Fits.assign {cs : List (Ty × X)} {ts : List Ty} (h : Fits cs ts) :
    assignAll ((cs.map some).map valueOf) ts = some (results cs ts) := by
  induction h with
  | nil => rfl
  | @cons c t cs ts h hs ih =>
    have : Verif.Api.assign (valueOf (some c)) t = some (.mk t (some c)) := by
      simp only [valueOf, Verif.Api.assign]
      by_cases ht : c.1 = t
      · rw [if_pos ht, ht]
      · rcases h with h | ⟨h1, h2⟩
        · exact absurd h ht
        · have : (t.iface && c.1.implements t) = true := by
            simp only [h1, Ty.implements, Bool.true_and, List.all_eq_true, List.contains_iff_mem]
            exact h2
          rw [if_neg ht, if_pos this]
    simp only [List.map_cons, assignAll, this, ih, results]

theorem asInterfaces_eq (args : List (RV X)) : args.map content = asInterfaces args := by
  induction args with
  | nil => rfl
  | cons v vs ih => cases v <;> simp [asInterfaces, content, ih]

/-- C133 for implementations over `any` (`_partial`: the list of results must be there, none of them nil, also beside an
error). The implementation is called once with the context and the values the arguments hold; its results arrive as
results of the declared types, its error is the last one, or what a function without error result panics with. -/
theorem any_partial (sys : Sys X) (g : Sig) (hp : g.Plain) (f : GenericAny S X) (c : Ty × X)
    (args : List (RV X)) (ha : AllTyped args g.params) (s s' : S) (cs : List (Ty × X)) (e : Dyn X)
    (hf : f (some (if g.ctx then c else sys.background)) (asInterfaces args) s = (.ok (some (cs.map some), e), s'))
    (hr : Fits cs g.results) (he : ∀ x, e = some x → 0 ∈ x.1.methods) :
    invoke (make sys g.ft (.genericAny f)) (g.pass c args) s =
      match (generalizing := false) e with
      | none => (.ok (g.give (results cs g.results) none), s')
      | some e =>
        if g.err then (.ok (g.give (results cs g.results) (some e)), s') else (.panic (.err e), s') := by
  show makeGenericAny sys g.ft f (g.pass c args) s = _
  unfold makeGenericAny makeFunc
  dsimp only
  rw [g.split_pass hp sys c args ha]
  simp only [andThen]
  rw [asInterfaces_eq, hf]
  dsimp only
  unfold finish
  rw [g.hasError hp]
  simp only [Option.getD_some]
  cases hge : g.err with
  | false =>
    have ho : g.ft.outs = g.results := by simp [Sig.ft, hge]
    cases e with
    | none => simp only [Bool.false_eq_true, if_false, ret, ho, hr.assign, Sig.give, hge, List.append_nil]
    | some e => simp only [Bool.false_eq_true, if_false, die]
  | true =>
    have ho : g.ft.outs = g.results ++ [errorTy] := by simp [Sig.ft, hge]
    cases e with
    | none =>
      have hl := assignAll_append hr.assign (ws := [.mk errorTy none]) (ss := [errorTy])
        (xs := [.mk errorTy none]) (by simp [assignAll, assign])
      simp only [if_true, ret, ho, g.lastZero sys hge, hl, Sig.give, hge]
    | some e =>
      have hl := assignAll_append hr.assign (ws := [valueOf (some e)]) (ss := [errorTy])
        (xs := [.mk errorTy (some e)]) (by simp [assignAll, assign_error (he e rfl)])
      simp only [if_true, ret, ho, hl, Sig.give, hge]

/-- An implementation over `any` panics like the function made of it. -/
theorem any_panics (sys : Sys X) (g : Sig) (hp : g.Plain) (f : GenericAny S X) (c : Ty × X)
    (args : List (RV X)) (ha : AllTyped args g.params) (s s' : S) (p : Panic X)
    (hf : f (some (if g.ctx then c else sys.background)) (asInterfaces args) s = (.panic p, s')) :
    invoke (make sys g.ft (.genericAny f)) (g.pass c args) s = (.panic p, s') := by
  show makeGenericAny sys g.ft f (g.pass c args) s = _
  unfold makeGenericAny makeFunc
  dsimp only
  rw [g.split_pass hp sys c args ha]
  simp only [andThen]
  rw [asInterfaces_eq, hf]

example : invoke (make sys0 (Sig.ft ⟨true, [intTy], [anyTy, intTy], true⟩)
    (.genericAny (S := List Nat) fun _ args s => (.ok (some (args ++ args), some boom), 7 :: s)))
    [.mk contextTy (some ctx0), int 4] [] =
    (.ok [.mk anyTy (some (intTy, .n 4)), int 4, .mk errorTy (some boom)], [7]) :=
  any_partial sys0 ⟨true, [intTy], [anyTy, intTy], true⟩ ⟨by decide, by decide⟩ _ ctx0 [int 4]
    (.cons ⟨_, rfl⟩ .nil) [] [7] [(intTy, .n 4), (intTy, .n 4)] (some boom) rfl
    (.cons (.inr ⟨rfl, by decide⟩) (.cons (.inl rfl) .nil)) (fun x h => by cases h; decide)

/-- C133, in full for implementations over `any`: an implementation that returns an error and no results. -/
def AnyErrorClaim : Prop :=
  ∀ (g : Sig) (_ : g.Plain) (_ : g.err = true) (e : Ty × X0) (_ : 0 ∈ e.1.methods) (c : Ty × X0) (args : List (RV X0))
    (_ : AllTyped args g.params),
    (invoke (make sys0 g.ft (.genericAny (S := Unit) fun _ _ => ret (none, some e))) (g.pass c args) ()).1 =
      .ok (g.give (g.zeros sys0) (some e))

/-- C133 does not hold: with an implementation over `any`, a nil list of results is not replaced by zero values, and the
caller gets a panic of `reflect` instead of the error. -/
theorem any_error_fails : ¬ AnyErrorClaim := by
  intro h
  have := h sig0 sig0_plain rfl boom (by decide) ctx0 [int 4] (.cons ⟨_, rfl⟩ .nil)
  exact absurd this (by simp [invoke, make, makeKnown, makeGenericAny, makeFunc, splitArgs, Sig.pass, sig0, Sig.ft, andThen, ret,
    finish, FT.hasError, Ty.implements, errorTy, contextTy, assignAll, assign, valueOf, die, boom, intTy])

/-- C133 does not hold: a nil `any` among the results panics too, so such an implementation can not return a nil
interface. -/
theorem any_nil_result_fails (s : S) (c : Ty × X0) :
    invoke (make sys0 (Sig.ft ⟨true, [], [anyTy], true⟩) (.genericAny fun _ _ => ret (some [none], none)))
      [.mk contextTy (some c)] s = (.panic .runtime, s) := by
  simp [invoke, make, makeKnown, makeGenericAny, makeFunc, splitArgs, Sig.ft, andThen, ret,
    finish, FT.hasError, Ty.implements, errorTy, contextTy, assignAll, assign, valueOf, die, anyTy, lastZero, zeroOf]

/-- C133 does not hold for a function whose error is a type of its own, such as `func() api.Error[...]`: an
implementation that returns another error makes the caller panic. -/
theorem own_error_type_fails (s : S) :
    invoke (make sys0 { outs := [errStructTy] } (.generic fun _ _ => ret (some [], some boom))) [] s =
      (.panic .runtime, s) := by
  simp [invoke, make, makeKnown, makeGeneric, makeFunc, splitArgs, andThen, ret,
    finish, FT.hasError, Ty.implements, errorTy, assignAll, assign, valueOf, die, boom, errStructTy]

/-! ## C134: calling a function -/

theorem call_eq (sys : Sys X) (g : Sig) (hp : g.Plain) (code : Code S X) (c : Ty × X)
    (hc : c.1.implements contextTy = true) (args : List (RV X)) (ha : AllTyped args g.params) (s : S) :
    call sys g.ft (some code) (some c) args s = andThen (code (g.pass c args)) (fun rs =>
      if g.err then
        match rs.getLast? with
        | some v => match content v with
          | some e => ret (none, some e)
          | none => ret (some rs.dropLast, none)
        | none => die .runtime
      else ret (if rs = [] then none else some rs, none)) s := by
  unfold call
  dsimp only
  rw [g.takesContext hp, g.hasError hp]
  have : (if g.ctx = true then valueOf (some c) :: args else args) =
      (if g.ctx = true then [valueOf (some c)] else []) ++ args := by cases g.ctx <;> rfl
  rw [this, reflectCall_typed g sys code c hc args ha]
  rfl

/-- C134 (`_partial`: the error of the function must be declared as `error`). `Call` calls the function once, with the
context if it takes one, and returns its results without the error, or the error if it is not nil. -/
theorem call_partial (sys : Sys X) (g : Sig) (hp : g.Plain) (code : Code S X) (c : Ty × X)
    (hc : c.1.implements contextTy = true) (args : List (RV X)) (ha : AllTyped args g.params) (s s' : S)
    (r : Res X (List (RV X) × Dyn X)) (hne : g.err = false → ∀ rs e, r = .ok (rs, e) → e = none)
    (hcode : code (g.pass c args) s = (g.ends r, s')) :
    match (generalizing := false) r with
    | .panic p => call sys g.ft (some code) (some c) args s = (.panic p, s')
    | .ok (rs, none) => ∃ o, call sys g.ft (some code) (some c) args s = (.ok (o, none), s') ∧ o.getD [] = rs
    | .ok (_, some e) => call sys g.ft (some code) (some c) args s = (.ok (none, some e), s') := by
  rw [call_eq sys g hp code c hc args ha s]
  simp only [andThen]
  rw [hcode]
  cases r with
  | panic p => rfl
  | ok a =>
    obtain ⟨rs, e⟩ := a
    cases he : g.err with
    | false =>
      have := hne he rs e rfl
      subst this
      have hg : g.give rs none = rs := by simp [Sig.give, he]
      rw [show g.ends (.ok (rs, none)) = .ok (g.give rs none) from rfl, hg]
      simp only [Bool.false_eq_true, if_false]
      refine ⟨_, rfl, ?_⟩
      cases rs <;> rfl
    | true =>
      have hg : g.give rs e = rs ++ [.mk errorTy e] := by simp [Sig.give, he]
      cases e with
      | none =>
        refine ⟨some rs, ?_, rfl⟩
        rw [show g.ends (.ok (rs, none)) = .ok (g.give rs none) from rfl, hg]
        simp [content, ret]
      | some e =>
        rw [show g.ends (.ok (rs, some e)) = .ok (g.give rs (some e)) from rfl, hg]
        simp [content, ret]

example : call sys0 sig0.ft (some fun _ => ret [int 3, .mk errorTy (some boom)]) (some ctx0) [int 4] () =
    (.ok (none, some boom), ()) :=
  call_partial sys0 sig0 sig0_plain _ ctx0 (by decide) [int 4] (.cons ⟨_, rfl⟩ .nil) () ()
    (.ok ([int 3], some boom)) nofun rfl

/-- C134: `NumIn` and `In` describe the arguments `Call` takes, without the context; `NumOut` counts the results without
the error. -/
theorem in_params (g : Sig) (hp : g.Plain) :
    g.ft.numIn = g.params.length ∧ (∀ i, g.ft.in i = g.params[i]?) ∧ g.ft.numOut = g.results.length := by
  have hn : g.ft.numIn = g.params.length := by
    unfold FT.numIn
    rw [g.takesContext hp]
    cases h : g.ctx <;> simp [Sig.ft, h]
  refine ⟨hn, ?_, ?_⟩
  · intro i
    unfold FT.in
    rw [hn]
    cases h : g.ctx
    · simp [Sig.ft, h]
    · have : g.ft.ins = contextTy :: g.params := by simp [Sig.ft, h]
      rw [this, List.length_cons, Nat.add_sub_cancel_left]
      rfl
  · unfold FT.numOut
    rw [g.hasError hp]
    cases h : g.err <;> simp [Sig.ft, h]

example : sig0.ft.numIn = 1 ∧ sig0.ft.in 0 = some intTy ∧ sig0.ft.numOut = 1 :=
  ⟨(in_params sig0 sig0_plain).1, (in_params sig0 sig0_plain).2.1 0, (in_params sig0 sig0_plain).2.2⟩

/-- C134: a function that is not there is an error, not a panic. -/
theorem call_nil (sys : Sys X) (ft : FT) (ctx : Dyn X) (args : List (RV X)) (s : S) :
    call sys ft none ctx args s = (.ok (none, some sys.notImplemented), s) := rfl

/-- C134: a function which returns no error is not reported to have failed. -/
def CallClaim : Prop :=
  ∀ (ft : FT) (x : X0), ft.outs = [errStructTy] → ft.ins = [] → ft.variadic = none → x = sys0.zero errStructTy →
    (call sys0 ft (some fun _ => ret [.mk errStructTy (some (errStructTy, x))]) (some ctx0) [] ()).1 ≠
      .ok (none, some (errStructTy, x))

/-- C134 does not hold for a function whose error is a type of its own: its zero value, which says that nothing went
wrong, is an error for `Call`, so every call fails. -/
theorem call_own_error_type_fails : ¬ CallClaim := by
  intro h
  refine h { outs := [errStructTy] } _ rfl rfl rfl rfl ?_
  simp [call, reflectCall, callArgs, assignAll, andThen, ret, FT.hasError, FT.takesContext, Ty.implements, errorTy, errStructTy, content]

/-- C134 does not hold for variadic functions: `Call` does not take a slice for the variadic parameter, which is the type
that `In` reports for it. -/
theorem call_variadic_fails (code : Code S X0) (s : S) (x : X0) (slice : Ty) (hs : slice ≠ intTy) :
    let ft : FT := { ins := [slice], variadic := some intTy }
    ft.in 0 = some slice ∧ call sys0 ft (some code) (some ctx0) [.mk slice (some (slice, x))] s = (.panic .runtime, s) ∨
      slice = contextTy := by
  by_cases hc : slice = contextTy
  · exact Or.inr hc
  · refine Or.inl ⟨?_, ?_⟩
    · simp [FT.in, FT.numIn, FT.takesContext, hc]
    · have h1 : ¬ (intTy.iface = true) := by decide
      simp [call, reflectCall, callArgs, assignAll, assign, andThen, die, FT.takesContext, hc, hs, h1]

/-! ## C135: wrapping a function -/

/-- `original := fn.Copy(); fn.Make(func(ctx, args) { return original.Call(ctx, args) })`. -/
def wrapped (sys : Sys X) (ft : FT) (original : Option (Code S X)) : Option (Code S X) :=
  make sys ft (.generic fun ctx args => call sys ft original ctx args)

/-- C135 (`_partial`: the function is not variadic, its error is declared as `error`, and results beside an error are
lost). A function wrapped by one that just calls the original behaves as the original: the same context, arguments,
results, error, panics and effects. -/
theorem wrap_partial (sys : Sys X) (g : Sig) (hp : g.Plain) (code : Code S X) (c : Ty × X)
    (hc : c.1.implements contextTy = true) (hb : sys.background.1.implements contextTy = true)
    (args : List (RV X)) (ha : AllTyped args g.params) (s s' : S)
    (r : Res X (List (RV X) × Dyn X)) (hne : g.err = false → ∀ rs e, r = .ok (rs, e) → e = none)
    (ht : ∀ rs e, r = .ok (rs, e) → AllTyped rs g.results ∧ ∀ x, e = some x → 0 ∈ x.1.methods)
    (hcode : invoke (some code) (g.pass c args) s = (g.ends r, s')) :
    invoke (wrapped sys g.ft (some code)) (g.pass c args) s =
      match (generalizing := false) r with
      | .ok (_, some e) => (.ok (g.give (g.zeros sys) (some e)), s')
      | _ => invoke (some code) (g.pass c args) s := by
  have hcc : ((if g.ctx then c else sys.background) : Ty × X).1.implements contextTy = true := by
    cases g.ctx <;> assumption
  have hpass : g.pass (if g.ctx then c else sys.background) args = g.pass c args := by
    cases h : g.ctx <;> simp [Sig.pass, h]
  have hcode' : code (g.pass (if g.ctx then c else sys.background) args) s = (g.ends r, s') := by rw [hpass]; exact hcode
  have hcall := call_partial sys g hp code (if g.ctx then c else sys.background) hcc args ha s s' r hne hcode'
  unfold wrapped
  cases r with
  | panic p =>
    rw [generic_partial sys g hp _ c args ha s s' (.panic p) hcall nofun]
    exact hcode.symm
  | ok a =>
    obtain ⟨rs, e⟩ := a
    obtain ⟨t1, t2⟩ := ht rs e rfl
    cases e with
    | none =>
      obtain ⟨o, ho, hrs⟩ := hcall
      have hz : o.getD (g.zeros sys) = rs ∧ ∀ l, o = some l → AllTyped l g.results := by
        cases o with
        | some l =>
          have : l = rs := hrs
          subst this
          exact ⟨rfl, fun l' h => by cases h; exact t1⟩
        | none =>
          have : [] = rs := hrs
          subst this
          have : g.results = [] := by cases hh : g.results with
            | nil => rfl
            | cons => rw [hh] at t1; cases t1
          refine ⟨?_, nofun⟩
          simp [Sig.zeros, this]
      rw [generic_partial sys g hp _ c args ha s s' (.ok (o, none)) ho
        (fun rs' e' h => by cases h; exact ⟨hz.2, nofun⟩)]
      dsimp only
      rw [hz.1]
      exact hcode.symm
    | some e =>
      have hge : g.err = true := by
        cases h : g.err
        · exact absurd (hne h rs (some e) rfl) (by simp)
        · rfl
      rw [generic_partial sys g hp _ c args ha s s' (.ok (none, some e)) hcall
        (fun rs' e' h => by cases h; exact ⟨nofun, t2⟩)]
      dsimp only
      rw [if_pos hge]
      rfl

example : invoke (wrapped sys0 sig0.ft (some fun args s => (.ok [int args.length, .mk errorTy none], s + 1)))
    (sig0.pass ctx0 [int 4]) 5 = (.ok [int 2, .mk errorTy none], 6) :=
  wrap_partial sys0 sig0 sig0_plain _ ctx0 (by decide) (by decide) [int 4] (.cons ⟨_, rfl⟩ .nil) 5 6
    (.ok ([int 2], none)) nofun (fun rs e h => by cases h; exact ⟨.cons ⟨_, rfl⟩ .nil, nofun⟩) rfl

/-- C135: wrapping changes nothing a caller can see. -/
def WrapClaim : Prop :=
  ∀ (ft : FT) (code : Code Unit X0) (args : List (RV X0)), AllTyped args ft.ins →
    (∀ args, AllTyped args ft.ins → ∃ rs, (code args ()).1 = .ok rs ∧ AllTyped rs ft.outs) →
    (invoke (wrapped sys0 ft (some code)) args ()).1 = (invoke (some code) args ()).1

/-- C135 does not hold: a function that returns a result beside an error, as `io.Reader`'s `Read` does, loses it. -/
theorem wrap_fails : ¬ WrapClaim := by
  intro h
  have := h sig0.ft (fun _ => ret [int 3, .mk errorTy (some boom)]) [.mk contextTy (some ctx0), int 4]
    (.cons ⟨_, rfl⟩ (.cons ⟨_, rfl⟩ .nil))
    (fun _ _ => ⟨_, rfl, .cons ⟨_, rfl⟩ (.cons ⟨_, rfl⟩ .nil)⟩)
  rw [show invoke (wrapped sys0 sig0.ft (some fun _ => ret [int 3, .mk errorTy (some boom)]))
      [.mk contextTy (some ctx0), int 4] () = _ from
    wrap_partial sys0 sig0 sig0_plain (fun _ => ret [int 3, .mk errorTy (some boom)]) ctx0 (by decide) (by decide)
      [int 4] (.cons ⟨_, rfl⟩ .nil) () () (.ok ([int 3], some boom)) nofun
      (fun rs e h => by cases h; exact ⟨.cons ⟨_, rfl⟩ .nil, fun x h => by cases h; decide⟩) rfl] at this
  simp [invoke, ret, int, Sig.give, sig0, Sig.zeros, sys0, intTy, anysTy] at this

/-- C135 does not hold: the arguments of a function like `func(...any)` reach the original nested in one argument. -/
theorem wrap_variadic_fails (code : Code S X0) (slice : Ty) (hs : slice ≠ contextTy) (x : X0) (s : S) :
    invoke (wrapped sys0 { ins := [slice], variadic := some anyTy } (some code)) [.mk slice (some (slice, x))] s =
      invoke (wrapped sys0 { ins := [slice] } (some code))
        [.mk slice (some (slice, .anys (some [some (slice, x)])))] s := by
  have h1 : anyTy.iface = true := rfl
  have h2 : slice.implements anyTy = true := rfl
  by_cases hi : slice = anyTy
  · subst hi
    simp [invoke, wrapped, make, makeKnown, makeGeneric, makeFunc, splitArgs, hs, call, reflectCall, callArgs,
      assignAll, assign, FT.takesContext, content, sys0, FT.hasError, anyTy, contextTy, finish, FT.numOut]
  · simp [invoke, wrapped, make, makeKnown, makeGeneric, makeFunc, splitArgs, hs, call, reflectCall, callArgs,
      assignAll, assign, FT.takesContext, content, sys0, FT.hasError, hi, h1, h2, finish, FT.numOut]

/-! ## C136: implementing a function -/

/-- C136 (`_partial`: not for functions whose type is one of the generic types). A function made with an implementation
of its own type is that implementation. -/
theorem typed_partial (sys : Sys X) (ft : FT) (h1 : ft ≠ genericT) (h2 : ft ≠ genericAnyT) (h3 : ft ≠ rawT)
    (code : Code S X) (args : List (RV X)) (s : S) :
    invoke (make sys ft (Impl.ofValue sys ft (some code))) args s = code args s := by
  simp [Impl.ofValue, h1, h2, h3, make, invoke]

example : sig0.ft ≠ genericT ∧ sig0.ft ≠ genericAnyT ∧ sig0.ft ≠ rawT := by decide

/-- C136: the implementation a function is given is called with the arguments of the caller. -/
def TypedClaim : Prop :=
  ∀ (ft : FT) (args : List (RV X0)), AllTyped args ft.ins → ∀ code : Code Unit X0,
    invoke (make sys0 ft (Impl.ofValue sys0 ft (some code))) args () = code args ()

/-- C136 does not hold: a function of type `func(context.Context, []any) ([]any, error)` is taken for a generic
implementation, which gets the list it is called with nested in another list. -/
theorem typed_fails : ¬ TypedClaim := by
  intro h
  have hk := h genericAnyT [.mk contextTy (some ctx0), .mk anysTy (some (anysTy, .anys (some [])))]
    (.cons ⟨_, rfl⟩ (.cons ⟨_, rfl⟩ .nil))
    (fun args => match args with
      | [_, .mk _ (some (_, .anys (some [])))] => die (.err boom)
      | _ => die .runtime)
  have e1 : (Impl.ofValue sys0 genericAnyT (some (fun args : List (RV X0) => (match args with
      | [_, .mk _ (some (_, .anys (some [])))] => die (.err boom)
      | _ => die .runtime : M Unit X0 (List (RV X0)))))) = .genericAny (fun ctx args =>
        andThen ((match (some (fun args : List (RV X0) => (match args with
          | [_, .mk _ (some (_, .anys (some [])))] => die (.err boom)
          | _ => die .runtime : M Unit X0 (List (RV X0))))) with | some c => c | none => fun _ => die .runtime)
          [.mk contextTy ctx, .mk anysTy (some (anysTy, sys0.packAnys (some args)))])
          (asPair sys0.unpackAnys)) := rfl
  rw [e1] at hk
  have := congrArg Prod.fst hk
  revert this
  simp [make, makeKnown, invoke, makeGenericAny, makeFunc, splitArgs, andThen, sys0, content, die, contextTy, ctx0]

/-- C136: an implementation of another type is not called; the function fails with an error that says so. -/
theorem wrong_type (sys : Sys X) (ft ft' : FT) (hne : ft' ≠ ft) (code code' : Option (Code S X)) :
    make sys ft (.typed ft' code) = make sys ft (.typed ft' code') ∧
      make sys ft (.typed ft' code) = makeError sys ft (some sys.wrongType) := by
  simp [make, hne]

/-! ## C137: failing functions -/

/-- C137 (`_partial`: the error must be declared as `error`, and the type not be the generic type over `any`). A
function made to fail with an error returns it with zero values, whatever it is called with, or panics with it if it has
no error result. -/
theorem makeError_partial (sys : Sys X) (hl : sys.Lawful) (g : Sig) (hp : g.Plain) (hg : g.ft ≠ genericAnyT) (e : Ty × X)
    (he : 0 ∈ e.1.methods) (c : Ty × X) (args : List (RV X)) (ha : AllTyped args g.params) (s : S) :
    invoke (makeError sys g.ft (some e)) (g.pass c args) s =
      if g.err then (.ok (g.give (g.zeros sys) (some e)), s) else (.panic (.err e), s) := by
  have hcode : ∀ args, errorCode sys g.ft (some e) args s =
      if g.err then (.ok (g.give (g.zeros sys) (some e)), s) else (.panic (.err e), s) := by
    intro args
    unfold errorCode makeFunc
    rw [g.hasError hp]
    have hz := assignAll_typed (zeros_typed sys g.results)
    cases hge : g.err with
    | false => simp [andThen, die]
    | true =>
      have ho : g.ft.outs = g.results ++ [errorTy] := by simp [Sig.ft, hge]
      have ht : (g.results ++ [errorTy]).take ((g.results ++ [errorTy]).length - 1) = g.results := by simp
      have hl := assignAll_append hz (ws := [valueOf (some e)]) (ss := [errorTy])
        (xs := [.mk errorTy (some e)]) (by simp [assignAll, assign_error he])
      simp only [if_true, ho, ht, andThen, ret, hl]
      simp [Sig.give, hge, zeros_eq]
  unfold makeError
  by_cases h1 : g.ft = genericT
  · have hgen : g.ctx = true ∧ g.params = [valuesTy] ∧ g.results = [valuesTy] ∧ g.err = true := by
      obtain ⟨gc, ps, rs, ge⟩ := g
      simp only [Sig.ft, genericT, FT.mk.injEq] at h1
      obtain ⟨-, hi, ho, -⟩ := h1
      have hctx : gc = true := by
        cases gc
        · rw [if_neg (by decide), List.nil_append] at hi
          exact absurd (by rw [hi]; rfl) (hp.noCtx rfl)
        · rfl
      subst hctx
      rw [if_pos rfl] at hi
      have hps : ps = [valuesTy] := by simpa using hi
      have hge : ge = true := by
        cases ge
        · rw [if_neg (by decide), List.append_nil] at ho
          exact absurd (by decide) (hp.noErr rfl errorTy (by rw [ho]; rfl))
        · rfl
      subst hge
      rw [if_pos rfl] at ho
      refine ⟨rfl, hps, ?_, rfl⟩
      have := congrArg List.dropLast ho
      simpa using this
    obtain ⟨hctx, hps, hrs, hge⟩ := hgen
    have hgenT : genericT = g.ft := h1.symm
    rw [show Impl.ofValue sys g.ft (some (errorCode (S := S) sys g.ft (some e))) = .generic (fun ctx args =>
      andThen (errorCode sys g.ft (some e)
        [.mk contextTy ctx, .mk valuesTy (some (valuesTy, sys.packValues (some args)))])
        (asPair sys.unpackValues)) from by unfold Impl.ofValue; rw [if_pos h1]]
    have hf : (fun ctx args => andThen (errorCode (S := S) sys g.ft (some e)
        [.mk contextTy ctx, .mk valuesTy (some (valuesTy, sys.packValues (some args)))])
        (asPair sys.unpackValues)) (some (if g.ctx then c else sys.background)) args s = (.ok (none, some e), s) := by
      simp only [andThen]
      rw [hcode, if_pos hge]
      have hgive : g.give (g.zeros sys) (some e) =
          [.mk valuesTy (some (valuesTy, sys.zero valuesTy)), .mk errorTy (some e)] := by
        simp only [Sig.give, hge, if_true, zeros_eq, hrs, List.map_cons, List.map_nil]
        rfl
      rw [hgive]
      simp only [asPair, ret]
      rw [hl.nilValues]
    have := generic_partial (S := S) sys g hp (fun ctx args => andThen (errorCode (S := S) sys g.ft (some e)
        [.mk contextTy ctx, .mk valuesTy (some (valuesTy, sys.packValues (some args)))])
        (asPair sys.unpackValues)) c args ha s s (.ok (none, some e)) hf (fun rs e' h => by
      cases h
      exact ⟨nofun, fun x h => by cases h; exact he⟩)
    show invoke (make sys g.ft (.generic _)) (g.pass c args) s = _
    rw [this]
    rfl
  · by_cases h3 : g.ft = rawT
    · have hge : g.err = false := by
        obtain ⟨gc, ps, rs, ge⟩ := g
        cases ge with
        | false => rfl
        | true =>
          simp only [Sig.ft, rawT, FT.mk.injEq, if_true] at h3
          obtain ⟨-, -, ho, -⟩ := h3
          have := congrArg List.getLast? ho
          simp only [List.getLast?_append, List.getLast?_singleton, Option.some_or, Option.some.injEq] at this
          exact absurd this (by decide)
      rw [if_neg (by rw [hge]; decide)]
      have hcode' := fun a => (hcode a).trans (by rw [if_neg (by rw [hge]; decide)])
      rw [show Impl.ofValue sys g.ft (some (errorCode (S := S) sys g.ft (some e))) = .raw (fun args =>
        andThen (errorCode sys g.ft (some e) [.mk valuesTy (some (valuesTy, sys.packValues (some args)))]) fun
          | [.mk _ (some (_, x))] => ret ((sys.unpackValues x).getD [])
          | _ => die .runtime) from by
        unfold Impl.ofValue; rw [if_neg h1, if_neg hg, if_pos h3]; rfl]
      simp only [makeKnown, invoke, makeFunc, andThen]
      rw [hcode']
    · simp only [Impl.ofValue, h1, hg, h3, if_false, makeKnown, invoke]
      exact hcode _

example : invoke (makeError (S := Unit) sys0 sig0.ft (some boom)) (sig0.pass ctx0 [int 4]) () =
    (.ok [int 0, .mk errorTy (some boom)], ()) :=
  makeError_partial sys0 sys0_lawful sig0 sig0_plain (by decide) boom (by decide) ctx0 [int 4]
    (.cons ⟨_, rfl⟩ .nil) ()

example : invoke (makeError (S := Unit) sys0 sig1.ft (some boom)) [] () = (.panic (.err boom), ()) :=
  makeError_partial sys0 sys0_lawful sig1 sig1_plain (by decide) boom (by decide) ctx0 [] .nil ()

/-- C137: a function made to fail never panics with anything but its error. -/
def MakeErrorClaim : Prop :=
  ∀ (ft : FT) (args : List (RV X0)), AllTyped args ft.ins →
    (invoke (makeError (S := Unit) sys0 ft (some boom)) args ()).1 ≠ .panic .runtime

/-- C137 does not hold for a function whose error is a type of its own. -/
theorem makeError_own_error_type_fails : ¬ MakeErrorClaim := by
  intro h
  refine h { outs := [errStructTy] } [] .nil ?_
  have h1 : ({ outs := [errStructTy] } : FT) ≠ genericT := by decide
  have h2 : ({ outs := [errStructTy] } : FT) ≠ genericAnyT := by decide
  have h3 : ({ outs := [errStructTy] } : FT) ≠ rawT := by decide
  simp only [makeError, Impl.ofValue, h1, h2, h3, if_false, makeKnown, invoke, errorCode, makeFunc]
  simp [andThen, ret, FT.hasError, Ty.implements, errorTy, errStructTy, assignAll, assign, valueOf, boom, die]

/-- C137 does not hold for a function of the generic type over `any`. -/
theorem makeError_generic_fails : ¬ MakeErrorClaim := by
  intro h
  refine h genericAnyT [.mk contextTy (some ctx0), .mk anysTy (some (anysTy, .anys none))]
    (.cons ⟨_, rfl⟩ (.cons ⟨_, rfl⟩ .nil)) ?_
  have h1 : genericAnyT ≠ genericT := by decide
  simp only [makeError, Impl.ofValue, h1, if_false, if_true, makeKnown, invoke, makeGenericAny, makeFunc]
  simp [andThen, ret, FT.hasError, Ty.implements, errorTy, assignAll, assign, valueOf, boom, die,
    errorCode, makeFunc, splitArgs, ctx0, contextTy, genericAnyT, anysTy, asPair, zeroOf, sys0, finish, content]

/-! ## C138: results of a link layer -/

/-- C138 (`_partial`: results must be nil, all there, or all there but the error). `Return` gives the results and the
error to the caller of a function: zero values for nil, and the error in the last place. -/
theorem return_partial (sys : Sys X) (g : Sig) (hp : g.Plain) (rs : Option (List (RV X))) (e : Dyn X)
    (hr : ∀ l, rs = some l → AllTyped l g.results) (he : ∀ c, e = some c → 0 ∈ c.1.methods) (args : List (RV X))
    (s : S) :
    makeFunc g.ft (fun _ => returnResults sys g.ft rs e) args s =
      match e, g.err with
      | some e, false => (.panic (.err e), s)
      | _, _ => (.ok (g.give (rs.getD (g.zeros sys)) e), s) := by
  unfold makeFunc returnResults
  dsimp only
  rw [g.hasError hp]
  have hz : AllTyped (rs.getD (g.zeros sys)) g.results := by
    cases rs with
    | some l => exact hr l rfl
    | none => rw [Option.getD_none, zeros_eq]; exact zeros_typed sys _
  cases hge : g.err with
  | false =>
    have ho : g.ft.outs = g.results := by simp [Sig.ft, hge]
    have hg : ∀ e : Dyn X, g.give (rs.getD (g.zeros sys)) e = rs.getD (g.zeros sys) := fun e => by
      simp [Sig.give, hge]
    rw [ho, ← zeros_eq]
    generalize rs.getD (g.zeros sys) = l at *
    rw [show g.results.length - l.length = 0 from by rw [hz.length]; omega]
    simp only [List.replicate_zero, List.flatten_nil, List.append_nil]
    cases e with
    | none => simp [andThen, ret, assignAll_typed hz, hg]
    | some e => simp [andThen, die]
  | true =>
    have ho : g.ft.outs = g.results ++ [errorTy] := by simp [Sig.ft, hge]
    have key : ∀ l : List (RV X), l = rs.getD (g.ft.outs.map (zeroOf sys)) →
        l ++ (List.replicate (g.ft.outs.length - l.length) (lastZero sys g.ft)).flatten =
          rs.getD (g.zeros sys) ++ [.mk errorTy none] := by
      intro l hl
      rw [g.lastZero sys hge]
      cases rs with
      | none =>
        have : l = g.zeros sys ++ [.mk errorTy none] := by
          rw [hl, ho, zeros_eq]; simp [zeroOf, errorTy]
        subst this
        have : g.ft.outs.length - (g.zeros sys ++ [RV.mk errorTy none]).length = 0 := by
          rw [ho, zeros_eq]; simp
        rw [this]; simp
      | some l' =>
        have : l = l' := hl
        subst this
        have : g.ft.outs.length - l.length = 1 := by
          rw [ho, (hr l rfl).length]; simp
        rw [this]; simp
    rw [key _ rfl]
    have hg : ∀ e : Dyn X, g.give (rs.getD (g.zeros sys)) e = rs.getD (g.zeros sys) ++ [.mk errorTy e] := fun e => by
      simp [Sig.give, hge]
    generalize rs.getD (g.zeros sys) = l at *
    cases e with
    | none =>
      have hl : assignAll (l ++ [RV.mk errorTy none]) (g.results ++ [errorTy]) = some (l ++ [RV.mk errorTy none]) :=
        assignAll_typed (hz.append (.cons ⟨_, rfl⟩ .nil))
      simp [andThen, ret, ho, hl, hg]
    | some e =>
      have hl := assignAll_append (assignAll_typed hz) (ws := [valueOf (some e)]) (ss := [errorTy])
        (xs := [.mk errorTy (some e)]) (by simp [assignAll, assign_error (he e rfl)])
      have hset : (l ++ [RV.mk errorTy none]).set ((g.results ++ [errorTy]).length - 1) (valueOf (some e)) =
          l ++ [valueOf (some e)] := by
        rw [List.length_append, ← hz.length]
        simp
      simp only [ho, hset, if_true, ret, andThen, hl, hg]

example : makeFunc sig0.ft (fun _ => returnResults sys0 sig0.ft (some [int 5]) (some boom)) [] () =
    (.ok [int 5, .mk errorTy (some boom)], ()) :=
  return_partial sys0 sig0 sig0_plain (some [int 5]) (some boom)
    (fun l h => by cases h; exact .cons ⟨_, rfl⟩ .nil) (fun c h => by cases h; decide) [] ()

/-- C138 does not hold for results of which more than the error is missing: they are filled up with nil errors, which
are of the wrong type. -/
theorem return_short_fails (args : List (RV X0)) (s : S) :
    makeFunc (Sig.ft ⟨false, [], [intTy, intTy], true⟩)
      (fun _ => returnResults sys0 (Sig.ft ⟨false, [], [intTy, intTy], true⟩) (some [int 5]) none) args s =
      (.panic .runtime, s) := by
  simp [makeFunc, returnResults, Sig.ft, lastZero, zeroOf, errorTy, intTy, int, andThen, ret, assignAll, assign, die]

/-! ## C139: stubs -/

/-- What the result of a stubbed function should be: an empty reader for `io.ReadCloser`, else the zero value. -/
def Sig.empties (g : Sig) (sys : Sys X) : List (RV X) :=
  g.results.map fun t => if t = readCloserTy then .mk t (some sys.reader)
    else .mk t (if t.iface then none else some (t, sys.zero t))

/-- C139 (`_partial`: not for the generic types, and the error must be declared as `error`). A stubbed function returns
empty values and the error of the stub; without an error result it panics if there is an error. -/
theorem stub_partial (sys : Sys X) (hr : sys.reader.1.implements readCloserTy = true) (g : Sig) (hp : g.Plain)
    (h1 : g.ft ≠ genericT) (h2 : g.ft ≠ genericAnyT) (h3 : g.ft ≠ rawT) (e : Dyn X)
    (he : ∀ c, e = some c → 0 ∈ c.1.methods) (args : List (RV X)) (s : S) :
    invoke (stub sys g.ft e) args s =
      match e, g.err with
      | some e, false => (.panic (.err e), s)
      | _, _ => (.ok (g.give (g.empties sys) e), s) := by
  unfold stub
  rw [typed_partial sys g.ft h1 h2 h3]
  have hres : ∀ ts : List Ty, assignAll (ts.map fun t => if t = readCloserTy then valueOf (some sys.reader)
      else zeroOf sys t) ts = some (ts.map fun t => if t = readCloserTy then .mk t (some sys.reader)
        else .mk t (if t.iface then none else some (t, sys.zero t))) := by
    intro ts
    induction ts with
    | nil => rfl
    | cons t ts ih =>
      simp only [List.map_cons, assignAll, ih]
      by_cases ht : t = readCloserTy
      · subst ht
        have : assign (valueOf (some sys.reader)) readCloserTy = some (.mk readCloserTy (some sys.reader)) := by
          simp only [valueOf, assign]
          by_cases hq : sys.reader.1 = readCloserTy
          · rw [if_pos hq, hq]
          · rw [if_neg hq, hr]; rfl
        simp [this]
      · have : assign (zeroOf sys t) t = some (.mk t (if t.iface then none else some (t, sys.zero t))) := by
          rw [assign_typed (typed_zero sys t)]
          unfold zeroOf; cases t.iface <;> rfl
        simp [ht, this]
  have hee : errorTy ≠ readCloserTy := by decide
  unfold makeFunc
  dsimp only
  rw [g.hasError hp]
  cases hge : g.err with
  | false =>
    have ho : g.ft.outs = g.results := by simp [Sig.ft, hge]
    cases e with
    | some e => simp [andThen, die]
    | none =>
      simp only [stubResults, g.hasError hp, hge, Bool.false_and, Bool.false_eq_true, if_false, ho, andThen, ret,
        hres]
      simp [Sig.give, hge, Sig.empties]
  | true =>
    have ho : g.ft.outs = g.results ++ [errorTy] := by simp [Sig.ft, hge]
    cases e with
    | none =>
      simp only [stubResults, Option.isSome_none, Bool.and_false, Bool.false_eq_true, if_false, ho, andThen, ret,
        hres]
      rw [List.map_append]
      simp [Sig.give, hge, Sig.empties, hee]; rfl
    | some e =>
      simp only [stubResults, g.hasError hp, hge, Option.isSome_some, Bool.and_true, if_true, ho, andThen, ret]
      rw [List.map_append]
      have hset : ∀ (l : List (RV X)) (a b : RV X), l.length = g.results.length →
          (l ++ [a]).set ((g.results ++ [errorTy]).length - 1) b = l ++ [b] := by
        intro l a b hl
        simp [← hl]
      rw [List.map_cons, List.map_nil, hset _ _ _ (by simp)]
      rw [assignAll_append (hres g.results) (ws := [valueOf (some e)]) (ss := [errorTy])
        (xs := [.mk errorTy (some e)]) (by simp [assignAll, assign_error (he e rfl)])]
      simp [Sig.give, hge, Sig.empties, ret]

example : invoke (stub (S := Unit) sys0 sig0.ft none) [] () = (.ok [int 0, .mk errorTy none], ()) :=
  stub_partial sys0 (by decide) sig0 sig0_plain (by decide) (by decide) (by decide) none nofun [] ()

/-- C139 does not hold for a function whose error is a type of its own: it panics in `reflect`. -/
theorem stub_own_error_type_fails (s : S) :
    invoke (stub sys0 { outs := [errStructTy] } (some boom)) [] s = (.panic .runtime, s) := by
  have h1 : ({ outs := [errStructTy] } : FT) ≠ genericT := by decide
  have h2 : ({ outs := [errStructTy] } : FT) ≠ genericAnyT := by decide
  have h3 : ({ outs := [errStructTy] } : FT) ≠ rawT := by decide
  unfold stub
  rw [typed_partial sys0 _ h1 h2 h3]
  simp [makeFunc, andThen, ret, FT.hasError, Ty.implements, errorTy, errStructTy, assignAll, assign, valueOf, boom, die,
    stubResults]

end Verif.Api
