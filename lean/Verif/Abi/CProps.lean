import Verif.Abi.Props
/-!
# C77: the C calling conventions
-/
namespace Verif.Abi
namespace C

/-- A single value: not a struct and not nothing. -/
def Single (v : Val) : Prop := v ≠ .b0 ∧ ∀ fs, v ≠ .struct fs

/-- Whether it is a float. -/
def Float (v : Val) : Prop := v = .f4 ∨ v = .f8

instance (v : Val) : Decidable (Float v) := inferInstanceAs (Decidable (_ ∨ _))

/-- The integer registers of System V in their order: RDI, RSI, RDX, RCX, R8, R9, as the VM numbers them. -/
def sysvIntegers : List Hw := [.reg 3, .reg 4, .specific, .reg 2, .reg 5, .reg 6]

/-- What System V says about single values: integers and pointers in the six integer registers, floats in the first eight
floating-point registers, the others in words on the stack, in order. -/
def sysvSpec : Nat → Nat → Nat → List Val → List Loc
  | _, _, _, [] => []
  | r, x, k, v :: vs =>
    if Float v then
      if x < 8 then .hw (.fp x) :: sysvSpec r (x + 1) k vs else .hw (.stack (8 * k)) :: sysvSpec r x (k + 1) vs
    else
      match sysvIntegers[r]? with
      | some h => .hw h :: sysvSpec (r + 1) x k vs
      | none => .hw (.stack (8 * k)) :: sysvSpec r x (k + 1) vs

/-- The arguments for which the code is right: at most seven floats and five integers, and before each integer there are as many floats as integers. -/
def Balanced : Nat → Nat → List Val → Prop
  | _, _, [] => True
  | r, x, v :: vs => if Float v then x < 7 ∧ Balanced r (x + 1) vs else r = x ∧ r < 5 ∧ Balanced (r + 1) x vs

/-- What the arm64 convention says about single values: integers and pointers in the first eight
registers, floats in the first eight floating-point registers, the others in words on the stack,
in order. -/
def aapcsSpec : Nat → Nat → Nat → List Val → List Loc
  | _, _, _, [] => []
  | r, x, k, v :: vs =>
    if Float v then
      if x < 8 then .hw (.fp x) :: aapcsSpec r (x + 1) k vs else .hw (.stack (8 * k)) :: aapcsSpec r x (k + 1) vs
    else
      if r < 8 then .hw (.reg r) :: aapcsSpec (r + 1) x k vs else .hw (.stack (8 * k)) :: aapcsSpec r x (k + 1) vs

/-- Several locations from a list. -/
def locs : List Loc → Locs
  | [] => .nil
  | l :: ls => .cons l (locs ls)

end C
open C

theorem placeAll_cons (f : St → Val → Option (Loc × St)) (s : St) (v : Val) (vs : List Val) :
    placeAll f s (v :: vs) = (f s v).bind fun r => (placeAll f r.2 vs).map fun q => (r.1 :: q.1, q.2) := by
  rw [placeAll]
  cases f s v with
  | none => rfl
  | some r => cases h : placeAll f r.2 vs with
    | none => simp [h]
    | some q => simp [h]

theorem placeAll_append (f : St → Val → Option (Loc × St)) (ws : List Val) : ∀ (vs : List Val) (s : St),
    placeAll f s (vs ++ ws) = (placeAll f s vs).bind fun r => (placeAll f r.2 ws).map fun q => (r.1 ++ q.1, q.2)
  | [], s => by
    simp only [List.nil_append, placeAll, Option.bind_some]
    cases placeAll f s ws <;> simp
  | v :: vs, s => by
    rw [List.cons_append, placeAll_cons, placeAll_cons]
    cases f s v with
    | none => rfl
    | some r =>
      simp only [Option.bind_some]
      rw [placeAll_append f ws vs r.2]
      cases placeAll f r.2 vs with
      | none => rfl
      | some q =>
        simp only [Option.bind_some, Option.map_some]
        cases placeAll f q.2 ws <;> simp

theorem placeAll_length (f : St → Val → Option (Loc × St)) : ∀ (vs : List Val) (s : St) (r : List Loc × St),
    placeAll f s vs = some r → r.1.length = vs.length
  | [], s, r, h => by simp only [placeAll, Option.some.injEq] at h; subst h; rfl
  | v :: vs, s, r, h => by
    rw [placeAll_cons] at h
    cases hv : f s v with
    | none => simp [hv] at h
    | some q =>
      simp only [hv, Option.bind_some, Option.map_eq_some_iff] at h
      obtain ⟨q', h1, rfl⟩ := h
      simp [placeAll_length f vs _ _ h1]

theorem single_size (v : Val) (h : Single v) : v.size ≠ 0 ∧ v.size ≤ 8 ∧ v.isStruct = false := by
  cases v with
  | b0 => exact absurd rfl h.1
  | struct fs => exact absurd rfl (h.2 fs)
  | _ => simp [Val.size, Val.isStruct]

theorem sysvAssign_single (s : St) (v : Val) (h : Single v) : sysvAssign s v = place s v (sysvReg v s.r s.x) := by
  obtain ⟨h1, h2, h3⟩ := single_size v h
  unfold sysvAssign sysvValue
  rw [if_neg (by omega), if_neg h1]

theorem sysvReg_float (v : Val) (h : Float v) (r x : Nat) : sysvReg v r x = sysvWithin (.hw (.fp x), r, x + 1) := by
  rcases h with rfl | rfl <;> rfl

theorem sysvReg_int (v : Val) (h : Single v) (hf : ¬ Float v) (r x : Nat) :
    sysvReg v r x = match sysvIntegers[x]? with
      | some h => sysvWithin (.hw h, r + 1, x)
      | none => .error .panics := by
  cases v with
  | b0 => exact absurd rfl h.1
  | struct fs => exact absurd rfl (h.2 fs)
  | f4 => exact absurd (.inl rfl) hf
  | f8 => exact absurd (.inr rfl) hf
  | _ => rfl

theorem alignTo_word (k n : Nat) (h : n ≠ 0) (h' : n ≤ 8) : alignTo 8 (8 * k + n) = 8 * (k + 1) := by
  unfold alignTo
  rw [if_neg (by omega)]
  have : (8 * k + n + 8 - 1) / 8 = k + 1 := by omega
  rw [this, Nat.mul_comm]

theorem integers_inj : ∀ (a b : Nat) (h : Hw), sysvIntegers[a]? = some h → sysvIntegers[b]? = some h → a = b := by
  intro a b h ha hb
  have la := (List.getElem?_eq_some_iff.1 ha).1
  have lb := (List.getElem?_eq_some_iff.1 hb).1
  have : ∀ a : Fin 6, ∀ b : Fin 6, sysvIntegers[a.val]? = sysvIntegers[b.val]? → a = b := by decide
  have := this ⟨a, la⟩ ⟨b, lb⟩ (by rw [ha, hb])
  exact Fin.mk.inj this

theorem sysv_agrees (vs : List Val) : ∀ (r x : Nat), r ≤ 5 → x ≤ 7 → (∀ v ∈ vs, Single v) →
    ((∃ s, placeAll sysvAssign ⟨r, x, 0⟩ vs = some (sysvSpec r x 0 vs, s)) ↔ Balanced r x vs) := by
  induction vs with
  | nil => intro r x _ _ _; exact ⟨fun _ => trivial, fun _ => ⟨_, rfl⟩⟩
  | cons v vs ih =>
    intro r x hr hx h
    have hv := h v (List.mem_cons_self ..)
    have h' : ∀ v ∈ vs, Single v := fun v hv => h v (List.mem_cons_of_mem _ hv)
    rw [placeAll_cons, sysvAssign_single _ _ hv]
    unfold sysvSpec Balanced
    by_cases hf : Float v
    · rw [if_pos hf, if_pos hf, if_pos (by omega), sysvReg_float v hf]
      dsimp only
      unfold sysvWithin
      by_cases hx7 : x < 7
      · rw [if_neg (by dsimp only; omega)]
        simp only [place, Option.bind_some]
        rw [← ih r (x + 1) hr (by omega) h']
        constructor
        · rintro ⟨s, hs⟩
          simp only [Option.map_eq_some_iff] at hs
          obtain ⟨q, h1, h2⟩ := hs
          injection h2 with h2 h3
          injection h2 with _ h2
          exact ⟨hx7, q.2, by rw [h1, ← h2]⟩
        · rintro ⟨_, s, hs⟩
          exact ⟨s, by rw [hs]; rfl⟩
      · rw [if_pos (by dsimp only; omega)]
        simp only [place, Option.bind_some]
        constructor
        · rintro ⟨s, hs⟩
          simp only [Option.map_eq_some_iff] at hs
          obtain ⟨q, _, h2⟩ := hs
          injection h2 with h2 _
          injection h2 with h2 _
          cases h2
        · rintro ⟨h1, _⟩; exact absurd h1 hx7
    · rw [if_neg hf, if_neg hf, sysvReg_int v hv hf]
      have hr6 : ∃ h, sysvIntegers[r]? = some h := ⟨_, List.getElem?_eq_getElem (show r < sysvIntegers.length by simp [sysvIntegers]; omega)⟩
      obtain ⟨hw, hhw⟩ := hr6
      rw [hhw]
      dsimp only
      by_cases hx6 : x < 6
      · obtain ⟨hw', hhw'⟩ : ∃ h, sysvIntegers[x]? = some h := ⟨_, List.getElem?_eq_getElem (show x < sysvIntegers.length by simp [sysvIntegers]; omega)⟩
        rw [hhw']
        dsimp only
        unfold sysvWithin
        by_cases hr5 : r < 5
        · rw [if_neg (by dsimp only; omega)]
          simp only [place, Option.bind_some]
          rw [← ih (r + 1) x (by omega) hx h']
          constructor
          · rintro ⟨s, hs⟩
            simp only [Option.map_eq_some_iff] at hs
            obtain ⟨q, h1, h2⟩ := hs
            injection h2 with h2 h3
            injection h2 with h4 h2
            injection h4 with h4
            subst h4
            exact ⟨integers_inj r x _ hhw hhw', hr5, q.2, by rw [h1, ← h2]⟩
          · rintro ⟨rfl, _, s, hs⟩
            rw [hhw] at hhw'; cases hhw'
            exact ⟨s, by rw [hs]; rfl⟩
        · rw [if_pos (by dsimp only; omega)]
          simp only [place, Option.bind_some]
          constructor
          · rintro ⟨s, hs⟩
            simp only [Option.map_eq_some_iff] at hs
            obtain ⟨q, _, h2⟩ := hs
            injection h2 with h2 _
            injection h2 with h2 _
            injection h2 with h2
            subst h2
            have : r = 5 := by omega
            subst this
            cases hhw
          · rintro ⟨_, h1, _⟩; exact absurd h1 hr5
      · rw [List.getElem?_eq_none (by simp [sysvIntegers]; omega)]
        simp only [place, Option.bind_none]
        constructor
        · rintro ⟨s, hs⟩; cases hs
        · rintro ⟨h1, h2, _⟩; omega

/-- C77 on amd64, exactly for functions of single values: they are called as System V says just if each integer has as many floats before it as
integers, with at most five integers and seven floats. -/
theorem sysv_singles_iff (args : List Val) (hs : ∀ v ∈ args, Single v) :
    (∃ cc, sysv { args := args, rets := [] } = some cc ∧ cc.args = sysvSpec 0 0 0 args) ↔ Balanced 0 0 args := by
  rw [← sysv_agrees args 0 0 (by omega) (by omega) hs]
  unfold sysv
  simp only [Bool.false_eq_true, if_false]
  constructor
  · rintro ⟨cc, h1, h2⟩
    cases hp : placeAll sysvAssign ⟨0, 0, 0⟩ args with
    | none => rw [hp] at h1; cases h1
    | some q =>
      rw [hp] at h1
      simp only [Option.some.injEq] at h1
      subst h1
      exact ⟨q.2, by rw [← h2]⟩
  · rintro ⟨s, hs⟩
    exact ⟨⟨sysvSpec 0 0 0 args, [], none⟩, by rw [hs], rfl⟩

/-- An integer, a float, an integer, two floats: right. Two integers: wrong. -/
example : Balanced 0 0 [.b4, .f8, .mem, .f4, .f8] ∧ ¬ Balanced 0 0 [.b8, .b8] := by
  simp [Balanced, C.Float]

/-- C77 fails on amd64: two integers are passed in the same register. -/
theorem sysv_distinct_fails :
    ∃ cc, sysv { args := [.b8, .b8], rets := [] } = some cc ∧ cc.args = [.hw (.reg 3), .hw (.reg 3)] :=
  ⟨_, rfl, rfl⟩

/-- C77 fails on amd64: the sixth integer and the eighth float are on the stack, with a register left; an integer after six floats panics. -/
theorem sysv_last_register_fails :
    (∃ cc, sysv { args := List.replicate 6 .b8, rets := [] } = some cc ∧ cc.args[5]? = some (.hw (.stack 0))) ∧
    (∃ cc, sysv { args := List.replicate 8 .f8, rets := [] } = some cc ∧ cc.args[7]? = some (.hw (.stack 0))) ∧
    sysv { args := List.replicate 6 .f8 ++ [.b8], rets := [] } = none :=
  ⟨⟨_, rfl, rfl⟩, ⟨_, rfl, rfl⟩, rfl⟩

/-- C77 fails on amd64: two structs of more than 16 bytes are always at the same place on the stack. -/
theorem sysv_big_structs_fails (pre post : List Val) (fs gs : Vals) (hf : 16 < fs.size) (hg : 16 < gs.size) (cc : CC)
    (h : sysv { args := pre ++ .struct fs :: .struct gs :: post, rets := [] } = some cc) :
    ∃ off, cc.args[pre.length]? = some (.hw (.stack off)) ∧ cc.args[pre.length + 1]? = some (.hw (.stack off)) := by
  unfold sysv at h
  simp only [Bool.false_eq_true, if_false] at h
  cases hp : placeAll sysvAssign ⟨0, 0, 0⟩ (pre ++ .struct fs :: .struct gs :: post) with
  | none => rw [hp] at h; cases h
  | some q =>
    rw [hp] at h
    simp only [Option.some.injEq] at h
    subst h
    rw [placeAll_append] at hp
    cases h1 : placeAll sysvAssign ⟨0, 0, 0⟩ pre with
    | none => rw [h1] at hp; cases hp
    | some a =>
      have hl := placeAll_length _ _ _ _ h1
      have big : ∀ (ws : Vals) (s : St), 16 < ws.size → sysvAssign s (.struct ws) = some (.hw (.stack s.sp), s) := by
        intro ws s hw
        unfold sysvAssign
        rw [if_pos ⟨rfl, by simpa [Val.size] using hw⟩]
      rw [h1, Option.bind_some, placeAll_cons, big fs _ hf, Option.bind_some, placeAll_cons, big gs _ hg, Option.bind_some] at hp
      simp only [Option.map_eq_some_iff] at hp
      obtain ⟨b, ⟨c, ⟨d, _, rfl⟩, rfl⟩, rfl⟩ := hp
      exact ⟨a.2.sp, by simp [← hl], by simp [← hl]⟩

/-- Two slices after two integers. -/
example : ∃ cc, sysv { args := [.b8, .b8] ++ .struct (vals [.mem, .sizing, .sizing]) :: .struct (vals [.f8, .f8, .b1]) :: [.f8], rets := [] } = some cc ∧
    cc.args = [.hw (.reg 3), .hw (.reg 3), .hw (.stack 0), .hw (.stack 0), .hw (.fp 0)] := ⟨_, rfl, rfl⟩

/-- C77 on amd64, in part: a struct of one or two doubles is in as many floating-point registers, after up to seven doubles. -/
theorem sysv_doubles_partial (n : Nat) (fs : List Val) (hn : n + fs.length ≤ 7) (h1 : fs.length = 1 ∨ fs.length = 2) (hf : ∀ v ∈ fs, v = .f8) :
    ∃ cc, sysv { args := List.replicate n .f8 ++ [.struct (vals fs)], rets := [] } = some cc ∧
      cc.args = (List.range n).map (fun i => .hw (.fp i)) ++ [.multi (locs ((List.range fs.length).map fun i => .hw (.fp (n + i))))] := by
  have fl : ∀ (n x : Nat), x + n ≤ 7 → placeAll sysvAssign ⟨0, x, 0⟩ (List.replicate n .f8) =
      some ((List.range' x n).map (fun i => .hw (.fp i)), ⟨0, x + n, 0⟩) := by
    intro n
    induction n with
    | zero => intro x _; rfl
    | succ n ih =>
      intro x hx
      have e : sysvAssign ⟨0, x, 0⟩ .f8 = some (.hw (.fp x), ⟨0, x + 1, 0⟩) := by
        rw [sysvAssign_single _ _ ⟨by simp, by simp⟩]
        unfold sysvReg sysvWithin
        rw [if_neg (by dsimp only; omega)]
        rfl
      rw [List.replicate_succ, placeAll_cons, e, Option.bind_some]
      dsimp only
      rw [ih (x + 1) (by omega), List.range'_succ]
      refine congrArg some (Prod.ext rfl ?_)
      show St.mk _ _ _ = St.mk _ _ _
      congr 1; omega
  have last : sysvAssign ⟨0, 0 + n, 0⟩ (.struct (vals fs)) =
      some (.multi (locs ((List.range fs.length).map fun i => .hw (.fp (n + i)))), ⟨0, n + fs.length, 0⟩) := by
    rcases h1 with h1 | h1
    · obtain ⟨a, rfl⟩ := List.length_eq_one_iff.1 h1
      obtain rfl := hf a (by simp)
      simp only [List.length_singleton] at hn
      have w : ∀ l, sysvWithin (l, 0, 0 + n + 1) = .ok (l, 0, 0 + n + 1) := by intro l; unfold sysvWithin; rw [if_neg (by dsimp only; omega)]
      simp [sysvAssign, Val.isStruct, vals, Val.size, Vals.size, sysvValue, sysvReg, sysvRegs, w, bind, Except.bind, place, locs, List.range_succ, sysvWithin, show ¬ 8 ≤ n + 1 by omega]
    · obtain ⟨a, b, rfl⟩ := List.length_eq_two.1 h1
      obtain rfl := hf a (by simp)
      obtain rfl := hf b (by simp)
      simp only [List.length_cons, List.length_nil] at hn
      simp [sysvAssign, Val.isStruct, vals, Val.size, Vals.size, sysvValue, sysvReg, sysvRegs, bind, Except.bind, place, locs, List.range_succ, sysvWithin, show ¬ 8 ≤ n + 1 by omega, show ¬ 8 ≤ n + 1 + 1 by omega]
  refine ⟨⟨_, [], none⟩, ?_, rfl⟩
  unfold sysv
  simp only [Bool.false_eq_true, if_false]
  rw [placeAll_append, fl n 0 (by omega), Option.bind_some, placeAll_cons, last, Option.bind_some]
  simp [placeAll, List.range_eq_range']

/-- C77 fails on amd64: two 32-bit floats share a register in System V, here they have one each. -/
theorem sysv_packed_fails : ∃ cc, sysv { args := [.struct (vals [.f4, .f4])], rets := [] } = some cc ∧ cc.args.flatMap Loc.fps = [0, 1] := ⟨_, rfl, rfl⟩

/-- C77 on amd64, in part: a single result is in RAX or XMM0, as System V says. -/
theorem sysv_result_partial (v : Val) (hs : Single v) :
    ∃ cc, sysv { args := [], rets := [v] } = some cc ∧ cc.rets = [.hw (if Float v then .fp 0 else .reg 0)] := by
  cases v with
  | b0 => exact absurd rfl hs.1
  | struct fs => exact absurd rfl (hs.2 fs)
  | _ => exact ⟨_, rfl, rfl⟩

/-- C77 fails on amd64: functions that return a struct are refused. -/
theorem sysv_result_fails (args : List Val) (fs : Vals) (rets : List Val) : sysv { args := args, rets := .struct fs :: rets } = none := by
  unfold sysv
  simp only [Bool.false_eq_true, if_false]
  cases placeAll sysvAssign ⟨0, 0, 0⟩ args <;> rfl

theorem armAssign_single (s : St) (v : Val) (h : Single v) : armAssign s v = place s v (armReg v s.r s.x) := by
  obtain ⟨h1, h2, h3⟩ := single_size v h
  unfold armAssign armValue
  rw [if_neg (by omega), if_neg h1]

theorem armReg_float (v : Val) (h : Float v) (r x : Nat) : armReg v r x = armWithin (.hw (.fp x), r, x + 1) := by
  rcases h with rfl | rfl <;> (unfold armReg; rfl)

theorem armReg_int (v : Val) (h : Single v) (hf : ¬ Float v) (r x : Nat) : armReg v r x = armWithin (.hw (.reg r), r + 1, x) := by
  cases v with
  | b0 => exact absurd rfl h.1
  | struct fs => exact absurd rfl (h.2 fs)
  | f4 => exact absurd (.inl rfl) hf
  | f8 => exact absurd (.inr rfl) hf
  | _ => unfold armReg; rfl

theorem armWithin_ok (l : Loc) (r x : Nat) (hr : r ≤ 8) (hx : x ≤ 8) : armWithin (l, r, x) = .ok (l, r, x) := by
  unfold armWithin; rw [if_neg (by dsimp only; omega)]

theorem armWithin_full (l : Loc) (r x : Nat) (h : 8 < r ∨ 8 < x) : armWithin (l, r, x) = .error .full := by
  unfold armWithin; rw [if_pos (by dsimp only; omega)]

/-- How many floats there are. -/
def floatsIn (vs : List Val) : Nat := vs.countP (fun v => decide (Float v))

/-- How many integers there are. -/
def intsIn (vs : List Val) : Nat := vs.countP (fun v => !decide (Float v))

theorem aapcs_singles_aux (vs : List Val) : ∀ (r x k : Nat), r ≤ 8 → x ≤ 8 → (∀ v ∈ vs, Single v) →
    ∃ k', placeAll armAssign ⟨r, x, 8 * k⟩ vs = some (aapcsSpec r x k vs, ⟨min 8 (r + intsIn vs), min 8 (x + floatsIn vs), 8 * k'⟩) := by
  induction vs with
  | nil => intro r x k hr hx _; exact ⟨k, by simp [placeAll, aapcsSpec, intsIn, floatsIn]; omega⟩
  | cons v vs ih =>
    intro r x k hr hx h
    have hv := h v (List.mem_cons_self ..)
    have h' : ∀ v ∈ vs, Single v := fun v hv => h v (List.mem_cons_of_mem _ hv)
    obtain ⟨s1, s2, _⟩ := single_size v hv
    rw [placeAll_cons, armAssign_single _ _ hv]
    unfold aapcsSpec
    by_cases hf : Float v
    · rw [if_pos hf, armReg_float v hf]
      have c1 : floatsIn (v :: vs) = floatsIn vs + 1 := by simp [floatsIn, hf]
      have c2 : intsIn (v :: vs) = intsIn vs := by simp [intsIn, hf]
      by_cases hlt : x < 8
      · obtain ⟨k', e⟩ := ih r (x + 1) k hr (by omega) h'
        refine ⟨k', ?_⟩
        dsimp only
        rw [armWithin_ok _ _ _ hr (by omega), if_pos hlt]
        simp only [place, Option.bind_some]
        rw [e]
        refine congrArg some (Prod.ext rfl ?_)
        show St.mk _ _ _ = St.mk _ _ _
        congr 1 <;> omega
      · obtain ⟨k', e⟩ := ih r x (k + 1) hr hx h'
        refine ⟨k', ?_⟩
        dsimp only
        rw [armWithin_full _ _ _ (.inr (by omega)), if_neg hlt]
        simp only [place, Option.bind_some]
        rw [alignTo_word k v.size s1 s2, e]
        refine congrArg some (Prod.ext rfl ?_)
        show St.mk _ _ _ = St.mk _ _ _
        congr 1 <;> omega
    · rw [if_neg hf, armReg_int v hv hf]
      have c1 : floatsIn (v :: vs) = floatsIn vs := by simp [floatsIn, hf]
      have c2 : intsIn (v :: vs) = intsIn vs + 1 := by simp [intsIn, hf]
      by_cases hlt : r < 8
      · obtain ⟨k', e⟩ := ih (r + 1) x k (by omega) hx h'
        refine ⟨k', ?_⟩
        dsimp only
        rw [armWithin_ok _ _ _ (by omega) hx, if_pos hlt]
        simp only [place, Option.bind_some]
        rw [e]
        refine congrArg some (Prod.ext rfl ?_)
        show St.mk _ _ _ = St.mk _ _ _
        congr 1 <;> omega
      · obtain ⟨k', e⟩ := ih r x (k + 1) hr hx h'
        refine ⟨k', ?_⟩
        dsimp only
        rw [armWithin_full _ _ _ (.inl (by omega)), if_neg hlt]
        simp only [place, Option.bind_some]
        rw [alignTo_word k v.size s1 s2, e]
        refine congrArg some (Prod.ext rfl ?_)
        show St.mk _ _ _ = St.mk _ _ _
        congr 1 <;> omega

/-- C77 on arm64, in part: functions of single values are called as the procedure call standard says, and return a single value as it says. -/
theorem aapcs_singles_partial (fn : Fn) (hv : fn.vars = false) (hs : ∀ v ∈ fn.args, Single v) (hr : fn.rets.length ≤ 1) (hs' : ∀ v ∈ fn.rets, Single v) :
    ∃ cc, aapcs fn = some cc ∧ cc.args = aapcsSpec 0 0 0 fn.args ∧ cc.rets = fn.rets.map (fun v => .hw (if Float v then .fp 0 else .reg 0)) := by
  obtain ⟨k, e⟩ := aapcs_singles_aux fn.args 0 0 0 (by omega) (by omega) hs
  obtain ⟨k', e'⟩ := aapcs_singles_aux fn.rets 0 0 k (by omega) (by omega) hs'
  unfold aapcs
  rw [hv]
  simp only [Bool.false_eq_true, if_false]
  rw [show (⟨0, 0, 0⟩ : St) = ⟨0, 0, 8 * 0⟩ from rfl, e]
  dsimp only
  rw [e']
  refine ⟨_, rfl, rfl, ?_⟩
  match h : fn.rets with
  | [] => rfl
  | [v] =>
    simp only [aapcsSpec, List.map_cons, List.map_nil]
    by_cases hf : Float v <;> simp [hf]
  | _ :: _ :: _ => rw [h] at hr; simp at hr

example : aapcs { args := List.replicate 9 .b8 ++ [.f8, .b1, .mem], rets := [.b4] } =
    some ⟨(List.range 8).map (fun i => .hw (.reg i)) ++
      [.hw (.stack 0), .hw (.fp 0), .hw (.stack 8), .hw (.stack 16)], [.hw (.reg 0)], none⟩ := by decide +kernel

/-- The state after single values that are all in registers. -/
theorem aapcs_after (pre : List Val) (hs : ∀ v ∈ pre, Single v) (v : Val) (l : Loc)
    (h : ∀ k, ∃ s, armAssign ⟨min 8 (intsIn pre), min 8 (floatsIn pre), 8 * k⟩ v = some (l, s)) :
    ∃ cc, aapcs { args := pre ++ [v], rets := [] } = some cc ∧ cc.args[pre.length]? = some l := by
  obtain ⟨k, e⟩ := aapcs_singles_aux pre 0 0 0 (by omega) (by omega) hs
  simp only [Nat.zero_add] at e
  obtain ⟨s, hl⟩ := h k
  have e2 := placeAll_length _ _ _ _ e
  unfold aapcs
  simp only [Bool.false_eq_true, if_false]
  rw [show (⟨0, 0, 0⟩ : St) = ⟨0, 0, 8 * 0⟩ from rfl, placeAll_append, e, Option.bind_some, placeAll_cons]
  dsimp only
  rw [hl]
  refine ⟨_, rfl, ?_⟩
  dsimp only at e2
  simp [← e2]

/-- Registers for floats of a struct. -/
theorem armRegs_floats (v : Val) (hv : Float v) : ∀ (n r x : Nat), r ≤ 8 → x + n ≤ 8 →
    armRegs (vals (List.replicate n v)) r x = .ok (locs ((List.range' x n).map fun i => .hw (.fp i)), r, x + n)
  | 0, r, x, _, _ => by unfold armRegs; rfl
  | n + 1, r, x, hr, hx => by
    rw [List.replicate_succ, vals, armRegs, armReg_float v hv, armWithin_ok _ _ _ hr (by omega)]
    simp only [bind, Except.bind]
    rw [armRegs_floats v hv n r (x + 1) hr (by omega), List.range'_succ]
    simp only [List.map_cons, locs, Except.ok.injEq, Prod.mk.injEq, true_and]
    omega

theorem same_floats (v : Val) (hv : Float v) : ∀ n, sameFloats (List.replicate n v) = true
  | 0 => rfl
  | 1 => by rcases hv with rfl | rfl <;> rfl
  | n + 2 => by
    rw [List.replicate_succ, List.replicate_succ, sameFloats, ← List.replicate_succ, same_floats v hv (n + 1)]
    rcases hv with rfl | rfl <;> rfl

theorem vals_list : ∀ l : List Val, (vals l).list = l
  | [] => rfl
  | v :: l => by rw [vals, Vals.list, vals_list l]

theorem vals_size_replicate (v : Val) : ∀ n, (vals (List.replicate n v)).size = n * v.size
  | 0 => by simp [vals, Vals.size]
  | n + 1 => by rw [List.replicate_succ, vals, Vals.size, vals_size_replicate v n, Nat.succ_mul]; omega

/-- C77 on arm64, in part: structs of one to three floats of one size, and of four 32-bit floats, are in consecutive floating-point registers if there are
enough left. -/
theorem aapcs_floats_partial (pre : List Val) (hs : ∀ v ∈ pre, Single v) (v : Val) (hv : Float v) (n : Nat) (h0 : 0 < n) (h4 : n < 4 ∨ (n = 4 ∧ v = .f4))
    (hfit : floatsIn pre + n ≤ 8) :
    ∃ cc, aapcs { args := pre ++ [.struct (vals (List.replicate n v))], rets := [] } = some cc ∧
      cc.args[pre.length]? = some (.multi (locs ((List.range' (floatsIn pre) n).map fun i => .hw (.fp i)))) := by
  refine aapcs_after pre hs _ _ fun k => ?_
  have hsz : 0 < v.size := by rcases hv with rfl | rfl <;> decide
  have hsize : (Val.struct (vals (List.replicate n v))).size = n * v.size := by rw [Val.size, vals_size_replicate]
  have hmin : min 8 (floatsIn pre) = floatsIn pre := by omega
  have hpos : n * v.size ≠ 0 := Nat.ne_of_gt (Nat.mul_pos h0 hsz)
  have hfl : armFloats (.struct (vals (List.replicate n v))) = true := by
    unfold armFloats
    dsimp only
    rw [vals_list, same_floats v hv]
    split <;> rfl
  unfold armAssign armValue
  rw [if_neg (by rw [hfl]; simp), if_neg (by rw [hsize]; exact hpos), armReg, vals_list, List.length_replicate]
  have hregs : armRegs (vals (List.replicate n v)) (min 8 (intsIn pre)) (floatsIn pre) =
      .ok (locs ((List.range' (floatsIn pre) n).map fun i => .hw (.fp i)), min 8 (intsIn pre), floatsIn pre + n) :=
    armRegs_floats v hv n _ _ (by omega) hfit
  dsimp only
  rw [hmin, hregs]
  rcases h4 with h4 | ⟨rfl, rfl⟩
  · rw [if_pos h4, same_floats v hv, if_pos rfl]
    simp only [bind, Except.bind]
    rw [armWithin_ok _ _ _ (by omega) hfit]
    exact ⟨_, rfl⟩
  · rw [if_neg (by omega), if_pos (by decide)]
    simp only [bind, Except.bind]
    rw [armWithin_ok _ _ _ (by omega) hfit]
    exact ⟨_, rfl⟩

example : ∃ cc, aapcs { args := [.b8, .f8] ++ [.struct (vals (List.replicate 3 .f8))], rets := [] } = some cc ∧
    cc.args[2]? = some (.multi (.cons (.hw (.fp 1)) (.cons (.hw (.fp 2)) (.cons (.hw (.fp 3)) .nil)))) :=
  aapcs_floats_partial [.b8, .f8] (by intro v hv; simp at hv; rcases hv with rfl | rfl <;> exact ⟨by simp, by simp⟩) .f8 (.inr rfl) 3 (by decide) (.inl (by decide)) (by decide)

/-- Fields that are not floats of one size. -/
def Mixed (fs : List Val) : Prop := (∃ v ∈ fs, ¬ Float v) ∨ ∃ v ∈ fs, ∃ w ∈ fs, v ≠ w

theorem same_all : ∀ (fs : List Val), sameFloats fs = true → ∃ v, (∀ w ∈ fs, w = v) ∧ (fs ≠ [] → Float v)
  | [], _ => ⟨.b0, by simp, by simp⟩
  | [v], h => by
    refine ⟨v, by simp, fun _ => ?_⟩
    cases v <;> simp [sameFloats] at h
    · exact .inl rfl
    · exact .inr rfl
  | a :: b :: l, h => by
    rw [sameFloats] at h
    simp only [Bool.and_eq_true, Bool.or_eq_true, beq_iff_eq] at h
    obtain ⟨⟨h1, rfl⟩, h3⟩ := h
    obtain ⟨v, hv, _⟩ := same_all (b :: l) h3
    obtain rfl := hv b (by simp)
    exact ⟨b, by intro w hw; rcases List.mem_cons.1 hw with rfl | hw; · rfl
                 · exact hv w hw, fun _ => h1⟩

theorem mixed_not_same (fs : List Val) (h : Mixed fs) : sameFloats fs = false := by
  cases hs : sameFloats fs with
  | false => rfl
  | true =>
    obtain ⟨v, h1, h2⟩ := same_all fs hs
    exfalso
    rcases h with ⟨w, hw, hn⟩ | ⟨a, ha, b, hb, hn⟩
    · rw [h1 w hw] at hn
      exact hn (h2 (by rintro rfl; simp at hw))
    · exact hn ((h1 a ha).trans (h1 b hb).symm)

/-- C77 on arm64, in part: structs of up to three fields and more than 16 bytes that are not floats of one size are passed by reference, with the pointer where
an integer would be. -/
theorem aapcs_reference_partial (pre : List Val) (hs : ∀ v ∈ pre, Single v) (fs : Vals) (hl : fs.list.length < 4) (hm : Mixed fs.list) (hsz : 16 < fs.size)
    (hfit : intsIn pre < 8) :
    ∃ cc, aapcs { args := pre ++ [.struct fs], rets := [] } = some cc ∧ cc.args[pre.length]? = some (.indirect (.hw (.reg (intsIn pre)))) := by
  refine aapcs_after pre hs _ _ fun k => ?_
  unfold armAssign
  rw [if_pos ⟨by rw [Val.size]; exact hsz, by unfold armFloats; dsimp only; rw [if_pos hl]; exact mixed_not_same _ hm⟩]
  unfold armValue
  rw [if_neg (by decide), armReg_int _ ⟨by simp, by simp⟩ (by decide), armWithin_ok _ _ _ (by dsimp only; omega) (by dsimp only; omega)]
  dsimp only
  rw [show min 8 (intsIn pre) = intsIn pre by omega]
  exact ⟨_, rfl⟩

/-- A slice after an integer. -/
example : ∃ cc, aapcs { args := [.b8] ++ [.struct (vals [.mem, .sizing, .sizing])], rets := [] } = some cc ∧ cc.args[1]? = some (.indirect (.hw (.reg 1))) :=
  aapcs_reference_partial [.b8] (by intro v hv; simp at hv; subst hv; exact ⟨by simp, by simp⟩) _ (by decide) (.inl ⟨.mem, by decide, by decide⟩) (by decide) (by decide)

/-- C77 fails on arm64: structs of four fields or more and more than 16 bytes are put on the stack, although the standard passes a reference (or floats in
registers, as for four doubles). -/
theorem aapcs_big_struct_fails (pre : List Val) (hs : ∀ v ∈ pre, Single v) (fs : Vals) (hl : 4 ≤ fs.list.length) (hsz : 16 < fs.size) :
    ∃ cc off, aapcs { args := pre ++ [.struct fs], rets := [] } = some cc ∧ cc.args[pre.length]? = some (.hw (.stack off)) := by
  obtain ⟨k, e⟩ := aapcs_singles_aux pre 0 0 0 (by omega) (by omega) hs
  simp only [Nat.zero_add] at e
  have e2 := placeAll_length _ _ _ _ e
  dsimp only at e2
  have h : armAssign ⟨min 8 (intsIn pre), min 8 (floatsIn pre), 8 * k⟩ (.struct fs) = some (.hw (.stack (8 * k)), ⟨min 8 (intsIn pre), min 8 (floatsIn pre), alignTo 8 (8 * k + fs.size)⟩) := by
    unfold armAssign
    rw [if_neg (by unfold armFloats; dsimp only; rw [if_neg (by omega)]; simp)]
    unfold armValue
    rw [if_neg (by rw [Val.size]; omega), armReg, if_neg (by omega), if_neg (by omega)]
    rfl
  unfold aapcs
  simp only [Bool.false_eq_true, if_false]
  rw [show (⟨0, 0, 0⟩ : St) = ⟨0, 0, 8 * 0⟩ from rfl, placeAll_append, e, Option.bind_some, placeAll_cons]
  dsimp only
  rw [h]
  exact ⟨_, 8 * k, rfl, by simp [← e2]⟩

/-- Four doubles; a word, two halves and a byte. -/
example : (4 ≤ (vals (List.replicate 4 .f8)).list.length ∧ 16 < (vals (List.replicate 4 .f8)).size) ∧
    4 ≤ (vals [.b8, .b4, .b4, .b1]).list.length ∧ 16 < (vals [.b8, .b4, .b4, .b1]).size := by decide

/-- C77 fails on arm64: a struct of at most 16 bytes and three fields that are not floats of one size is passed nowhere, and reported as placed. -/
theorem aapcs_small_struct_fails (pre : List Val) (hs : ∀ v ∈ pre, Single v) (fs : Vals) (hl : fs.list.length < 4) (hm : Mixed fs.list) (h0 : 0 < fs.size) (hsz : fs.size ≤ 16) :
    ∃ cc, aapcs { args := pre ++ [.struct fs], rets := [] } = some cc ∧ cc.args[pre.length]? = some .none := by
  refine aapcs_after pre hs _ _ fun k => ?_
  unfold armAssign
  rw [if_neg (by rw [Val.size]; omega)]
  unfold armValue
  rw [if_neg (by rw [Val.size]; omega), armReg, if_pos hl, mixed_not_same _ hm, if_neg (by simp), armWithin_ok _ _ _ (by dsimp only; omega) (by dsimp only; omega)]
  exact ⟨_, rfl⟩

/-- A string. -/
example : (vals [.mem, .sizing]).list.length < 4 ∧ 0 < (vals [.mem, .sizing]).size ∧ (vals [.mem, .sizing]).size ≤ 16 := by decide

/-- C77 fails on arm64: four 32-bit integers are passed in four registers, although they are two words; an empty field among four panics. -/
theorem aapcs_packed_struct_fails :
    (∃ cc, aapcs { args := [.struct (vals [.b4, .b4, .b4, .b4])], rets := [] } = some cc ∧
      cc.args.flatMap Loc.regs = [0, 1, 2, 3]) ∧ aapcs { args := [.struct (vals [.b4, .b4, .b4, .b0])], rets := [] } = none := ⟨⟨_, rfl, rfl⟩, rfl⟩

/-! ## C73: alignment -/

mutual
/-- No part of the type is empty. -/
def GTy.solid : GTy → Prop
  | .array _ _ => False
  | .struct fs => fs.solid ∧ fs ≠ .nil
  | _ => True
/-- The same for fields. -/
def GTys.solid : GTys → Prop
  | .nil => True
  | .cons t ts => t.solid ∧ ts.solid
end

mutual
theorem solid_size : ∀ t : GTy, t.ok → t.solid → t.gsize ≠ 0
  | .int w, h, _ => by simp only [GTy.ok] at h; simp only [GTy.gsize]; omega
  | .struct fs, h, hs => by
    simp only [GTy.ok] at h
    simp only [GTy.solid] at hs
    have := solid_sizes fs h hs.1 hs.2 0
    have := le_roundUp fs.galign (fs.extent 0)
    simp only [GTy.gsize]
    omega
  | .array _ _, _, h => absurd h (by simp [GTy.solid])
  | .float32, _, _ | .float64, _, _ | .complex64, _, _ | .complex128, _, _ | .slice, _, _ | .string, _, _ | .iface, _, _ | .ptr, _, _ => by simp [GTy.gsize]
theorem solid_sizes : ∀ fs : GTys, fs.ok → fs.solid → fs ≠ .nil → ∀ off, off < fs.extent off
  | .nil, _, _, h, _ => absurd rfl h
  | .cons t .nil, h, hs, _, off => by
    simp only [GTys.ok] at h
    simp only [GTys.solid] at hs
    have := solid_size t h.1 hs.1
    have := le_roundUp t.galign off
    rw [GTys.extent, if_neg (by omega)]
    omega
  | .cons t (.cons u us), h, hs, _, off => by
    have h' := h
    have hs' := hs
    simp only [GTys.ok] at h
    simp only [GTys.solid] at hs
    have h1 := solid_size t h.1 hs.1
    have h2 := le_roundUp t.galign off
    have h3 := solid_sizes (.cons u us) (by simp only [GTys.ok]; exact h.2) (by simp only [GTys.solid]; exact hs.2) (by simp) (roundUp t.galign off + t.gsize)
    rw [GTys.extent]
    · omega
    · simp
end

mutual
theorem value_align_aux : ∀ (t : GTy) (v : Val), t.ok → t.solid → valueOf GTy.gsize t = some v → v.align = t.galign
  | .struct fs, v, ho, hs, h => by
    have hz := solid_size (.struct fs) ho hs
    rw [valueOf, if_neg hz] at h
    cases hf : fieldsOf GTy.gsize fs with
    | none => rw [hf] at h; cases h
    | some vs =>
      rw [hf] at h
      simp only [Option.map_some, Option.some.injEq] at h
      subst h
      simp only [GTy.ok] at ho
      simp only [GTy.solid] at hs
      rw [Val.align, GTy.galign]
      have := values_align_aux fs vs ho hs.1 hf
      have := (galign_pos fs)
      cases fs with
      | nil => exact absurd rfl hs.2
      | cons t ts =>
        cases vs with
        | nil => simp [fieldsOf, bind, Option.bind] at hf; split at hf <;> simp at hf; split at hf <;> simp at hf
        | cons w ws =>
          have hp := fieldsOf_align_pos _ _ hf (by simp)
          omega
  | .array _ _, _, _, h, _ => absurd h (by simp [GTy.solid])
  | .int w, v, ho, _, h => by
    simp only [GTy.ok] at ho
    rcases ho with rfl | rfl | rfl | rfl <;> (simp only [valueOf, Option.some.injEq] at h; subst h; rfl)
  | .float32, v, _, _, h | .float64, v, _, _, h | .complex64, v, _, _, h | .complex128, v, _, _, h | .slice, v, _, _, h | .string, v, _, _, h
  | .iface, v, _, _, h | .ptr, v, _, _, h => by simp only [valueOf, Option.some.injEq] at h; subst h; rfl
theorem values_align_aux : ∀ (fs : GTys) (vs : Vals), fs.ok → fs.solid → fieldsOf GTy.gsize fs = some vs → max 1 vs.align = fs.galign
  | .nil, vs, _, _, h => by simp only [fieldsOf, Option.some.injEq] at h; subst h; rfl
  | .cons t ts, vs, ho, hs, h => by
    simp only [GTys.ok] at ho
    simp only [GTys.solid] at hs
    rw [fieldsOf] at h
    cases hv : valueOf GTy.gsize t with
    | none => rw [hv] at h; cases h
    | some v =>
      cases hvs : fieldsOf GTy.gsize ts with
      | none => rw [hv, hvs] at h; cases h
      | some ws =>
        rw [hv, hvs] at h
        simp only [bind, Option.bind, Option.some.injEq] at h
        subst h
        have a := value_align_aux t v ho.1 hs.1 hv
        have b := values_align_aux ts ws ho.2 hs.2 hvs
        rw [Vals.align, GTys.galign, a]
        omega
theorem galign_pos : ∀ fs : GTys, 1 ≤ fs.galign
  | .nil => Nat.le_refl 1
  | .cons t ts => by have := galign_pos ts; rw [GTys.galign]; omega
end

/-- C73, in part: the alignment of the value is that of the type, if no part of it is empty. -/
theorem value_align_partial (t : GTy) (v : Val) (ho : t.ok) (hs : t.solid) (h : valueOf GTy.gsize t = some v) : v.align = t.galign :=
  value_align_aux t v ho hs h

example : (GTy.struct (.cons (.int 2) (.cons .string .nil))).solid ∧ valueOf GTy.gsize (.struct (.cons (.int 2) (.cons .string .nil))) =
    some (.struct (vals [.b2, .struct (vals [.mem, .sizing])])) := ⟨by simp [GTy.solid, GTys.solid], by decide +kernel⟩

end Verif.Abi
