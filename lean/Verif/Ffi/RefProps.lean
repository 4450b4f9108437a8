import Verif.Ffi.RefModel
/-!
# C93, C94, C95: handles, structures and calls by handle
-/
namespace Verif.Ffi

/-! ## Handles -/

/-- What holds in every reachable state. -/
structure Inv {V : Type} (s : Refs V) : Prop where
  /-- pending ids are in use, and no two goroutines have the same -/
  pend : ∀ g p v, s.pending g = some (p, v) → 0 < p ∧ p ≤ s.n
  inj : ∀ g g' p v v', s.pending g = some (p, v) → s.pending g' = some (p, v') → g = g'
  hand : ∀ p v, (p, v) ∈ s.handed → 0 < p ∧ p ≤ s.n ∧ s.m (.uint64 p) = some v
  apart : ∀ g p v v', s.pending g = some (p, v) → (p, v') ∉ s.handed
  nodup : (s.handed.map (·.1)).Nodup
  only : ∀ p v, s.m (.uint64 p) = some v → (p, v) ∈ s.handed

theorem inv_reach {V : Type} {s : Refs V} (h : RReach s) : Inv s := by
  induction h with
  | init => constructor <;> simp
  | @step s t _ hs ih =>
    cases hs with
    | take g v hg =>
      constructor
      · intro g' p v' e
        simp only [updG] at e
        split at e
        · cases e; simp
        · have := ih.pend g' p v' e; exact ⟨this.1, Nat.le_succ_of_le this.2⟩
      · intro g₁ g₂ p v₁ v₂ e₁ e₂
        simp only [updG] at e₁ e₂
        split at e₁
        · rename_i h₁
          split at e₂
          · rename_i h₂; rw [h₁, h₂]
          · cases e₁
            have := (ih.pend g₂ _ v₂ e₂).2
            omega
        · split at e₂
          · cases e₂
            have := (ih.pend g₁ _ v₁ e₁).2
            omega
          · exact ih.inj g₁ g₂ p v₁ v₂ e₁ e₂
      · intro p v' hp
        have := ih.hand p v' hp
        exact ⟨this.1, Nat.le_succ_of_le this.2.1, this.2.2⟩
      · intro g' p v₁ v₂ e
        simp only [updG] at e
        split at e
        · cases e
          intro c
          have := (ih.hand _ _ c).2.1
          omega
        · exact ih.apart g' p v₁ v₂ e
      · exact ih.nodup
      · exact ih.only
    | store g p v hg =>
      have hnew : ∀ v', (p, v') ∉ s.handed := fun v' => ih.apart g p v v' hg
      constructor
      · intro g' p' v' e
        simp only [updG] at e
        split at e
        · cases e
        · exact ih.pend g' p' v' e
      · intro g₁ g₂ p' v₁ v₂ e₁ e₂
        simp only [updG] at e₁ e₂
        split at e₁
        · cases e₁
        · split at e₂
          · cases e₂
          · exact ih.inj g₁ g₂ p' v₁ v₂ e₁ e₂
      · intro p' v' hp
        rcases List.mem_cons.1 hp with c | c
        · cases c
          have := ih.pend g p v hg
          exact ⟨this.1, this.2, by simp [upd]⟩
        · have := ih.hand p' v' c
          refine ⟨this.1, this.2.1, ?_⟩
          have hne : Key.uint64 p' ≠ .uint64 p := fun e => by
            cases e; exact hnew v' c
          simp only [upd, if_neg hne, this.2.2]
      · intro g' p' v₁ v₂ e c
        simp only [updG] at e
        split at e
        · cases e
        · rename_i hne
          rcases List.mem_cons.1 c with c | c
          · cases c
            exact hne (ih.inj g' g p v₁ v e hg)
          · exact ih.apart g' p' v₁ v₂ e c
      · rw [List.map_cons, List.nodup_cons]
        refine ⟨?_, ih.nodup⟩
        intro c
        obtain ⟨⟨p', v'⟩, hm, e⟩ := List.mem_map.1 c
        dsimp only at e
        subst e
        exact hnew v' hm
      · intro p' v' e
        simp only [upd] at e
        split at e
        · rename_i hk; cases hk; cases e; exact List.mem_cons_self ..
        · exact List.mem_cons_of_mem _ (ih.only p' v' e)
    | free id =>
      have hne : ∀ p, Key.uint64 p ≠ .uintptr id := fun p => by simp
      constructor
      · exact ih.pend
      · exact ih.inj
      · intro p v hp
        have := ih.hand p v hp
        exact ⟨this.1, this.2.1, by simp only [upd, if_neg (hne p), this.2.2]⟩
      · exact ih.apart
      · exact ih.nodup
      · intro p v e
        simp only [upd, if_neg (hne p)] at e
        exact ih.only p v e

/-- C93: whatever goroutines make handles, in whatever order their steps happen, no handle is 0 and no
two are the same. -/
theorem handles_distinct {V : Type} {s : Refs V} (h : RReach s) :
    (s.handed.map (·.1)).Nodup ∧ ∀ p v, (p, v) ∈ s.handed → p ≠ 0 :=
  ⟨(inv_reach h).nodup, fun p v hp => by have := ((inv_reach h).hand p v hp).1; omega⟩

/-- C93: a handle that was handed out gives the value it was made for, at any time afterwards. -/
theorem handles_get {V : Type} {s : Refs V} (h : RReach s) (p : Nat) (v : V)
    (hp : (p, v) ∈ s.handed) : s.get p = some v := ((inv_reach h).hand p v hp).2.2

/-- C93: no other number is a handle. -/
theorem handles_only {V : Type} {s : Refs V} (h : RReach s) (p : Nat) (v : V)
    (hg : s.get p = some v) : (p, v) ∈ s.handed := (inv_reach h).only p v hg

/-- A state in which two goroutines have made handles, with their steps interleaved. -/
example : ∃ s : Refs Nat, RReach s ∧ s.handed = [(1, 10), (2, 20)] := by
  have h₁ := RReach.step (V := Nat) .init (.take _ 0 10 rfl)
  have h₂ := RReach.step h₁ (.take _ 1 20 rfl)
  have h₃ := RReach.step h₂ (.store _ 1 2 20 rfl)
  have h₄ := RReach.step h₃ (.store _ 0 1 10 rfl)
  exact ⟨_, h₄, rfl⟩

/-- C93 fails: freeing a handle has no effect; a freed handle gives its value for ever. -/
theorem free_fails {V : Type} {s t : Refs V} (h : RReach s) (id : Nat) (v : V)
    (hp : (id, v) ∈ s.handed) (ht : t = { s with m := upd s.m (.uintptr id) none }) :
    RStep s t ∧ t.get id = some v := by
  subst ht
  refine ⟨.free s id, ?_⟩
  have := handles_get (.step h (.free s id)) id v hp
  exact this

/-- C93: the memory of freed handles is never released: there are as many entries as handles were
made. -/
theorem nothing_released {V : Type} {s : Refs V} (h : RReach s) (p : Nat) :
    (s.get p).isSome = true ↔ p ∈ s.handed.map (·.1) := by
  constructor
  · intro c
    obtain ⟨v, hv⟩ := Option.isSome_iff_exists.1 c
    exact List.mem_map.2 ⟨(p, v), handles_only h p v hv, rfl⟩
  · intro c
    obtain ⟨⟨p', v⟩, hm, e⟩ := List.mem_map.1 c
    dsimp only at e; subst e
    rw [handles_get h p' v hm]; rfl

/-! ## Structures -/

/-- C94, partial: what is encoded into a variable of the same kind is decoded from it. -/
theorem structure_partial (old v : Scalar) (hk : old.kind = v.kind) :
    (Cell.var old).encode v = some (.var v) ∧
    (v.kind ≠ .string → (Cell.var v).decode v.kind = some (.var v, v)) ∧
    (v.kind = .string → (Cell.var v).decodeString = some (.var v, v)) := by
  refine ⟨?_, ?_, ?_⟩
  · rw [Cell.encode, if_pos hk]
  · intro _; rw [Cell.decode, if_pos rfl]
  · intro h; rw [Cell.decodeString, if_pos h]

example : (Cell.var ⟨.int8, [0]⟩).encode ⟨.int8, [7]⟩ = some (.var ⟨.int8, [7]⟩) :=
  (structure_partial ⟨.int8, [0]⟩ ⟨.int8, [7]⟩ rfl).1

/-- C94: a variable of another kind is never changed silently: the attempt panics. -/
theorem structure_mismatch (old v : Scalar) (hk : old.kind ≠ v.kind) :
    (Cell.var old).encode v = none ∧ (Cell.var old).decode v.kind = none := by
  rw [Cell.encode, Cell.decode, if_neg hk, if_neg hk]
  exact ⟨rfl, rfl⟩

example : (Cell.var ⟨.int8, [0]⟩).encode ⟨.uint8, [7]⟩ = none :=
  (structure_mismatch ⟨.int8, [0]⟩ ⟨.uint8, [7]⟩ (by decide)).1

/-- C94 fails for interfaces: what was encoded can never be decoded. -/
theorem structure_iface_fails (old v : Scalar) (k : Kind) :
    ∃ c, (Cell.iface old).encode v = some c ∧ c.decode k = none ∧ c.decodeString = none :=
  ⟨.wrapped v, rfl, rfl, rfl⟩

/-! ## Strings and calls -/

theorem readBytes_spec (s : List UInt8) (n i : Nat) (h : i + n ≤ s.length) :
    readBytes n (.bytes s i) = some ((s.drop i).take n) := by
  induction n generalizing i with
  | zero => rw [readBytes]; simp
  | succ n ih =>
    have hi : i < s.length := by omega
    rw [readBytes, Cell.decode, List.getElem?_eq_getElem hi]
    simp only [if_true]
    rw [ih (i + 1) (by omega)]
    simp only [List.singleton_append]
    rw [List.drop_eq_getElem_cons hi, List.take_succ_cons]

/-- C95: a string variable is decoded to a string with the same bytes. -/
theorem string_decoded (v : Scalar) (hk : v.kind = .string) (hl : v.content.length < 2 ^ 32) :
    (Cell.var v).decodeInto .string = some (.var v, v) := by
  rw [Cell.decodeInto, if_pos rfl, Cell.decodeString, if_pos hk]
  simp only [stringLen, if_pos hk]
  rw [Nat.mod_eq_of_lt hl, readBytes_spec _ _ _ (by omega)]
  simp only [List.drop_zero, List.take_length]
  obtain ⟨k, c⟩ := v
  dsimp only at hk
  subst hk
  rfl

/-- C95, partial: a function without parameters that returns one string can be called by its handle,
and the caller gets that string. -/
theorem call_partial (v : Scalar) (hk : v.kind = .string) (hl : v.content.length < 2 ^ 32) :
    Func.call ⟨0, [v]⟩ [] = some [v] := by
  rw [Func.call, if_neg (by simp)]
  simp only [ne_eq, not_true, if_false]
  rw [hk, Cell.decodeInto, if_pos rfl, Cell.decodeString]
  simp only [List.getElem?_cons_zero, stringLen, if_pos hk]
  rw [Nat.mod_eq_of_lt hl, readBytes_spec _ _ _ (by omega)]
  simp only [List.drop_zero, List.take_length, Option.map_some]
  obtain ⟨k, c⟩ := v
  dsimp only at hk
  subst hk
  rfl

example : Func.call ⟨0, [⟨.string, [104, 105]⟩]⟩ [] = some [⟨.string, [104, 105]⟩] :=
  call_partial _ rfl (by decide)

/-- C95: a function without parameters and results can be called. -/
theorem call_nothing : Func.call ⟨0, []⟩ [] = some [] := rfl

/-- C95 fails for every other result: a function that returns a number panics. -/
theorem call_number_fails (v : Scalar) (hk : v.kind ≠ .string) : Func.call ⟨0, [v]⟩ [] = none := by
  rw [Func.call, if_neg (by simp)]
  simp only [ne_eq, not_true, if_false]
  rw [Cell.decodeInto, if_neg hk]
  rfl

/-- C95 fails for every function with parameters. -/
theorem call_args_fails (f : Func) (args : List Scalar) (h : f.ins ≠ 0) : f.call args = none := by
  rw [Func.call.eq_def, if_neg (fun c => h c.1)]
  cases args with
  | nil => simp [h]
  | cons a as => rfl

/-- C95, exactly: the calls by handle that return. -/
theorem call_exact (f : Func) (args : List Scalar) (ha : args.length = f.ins)
    (hl : ∀ v ∈ f.outs, v.content.length < 2 ^ 32) (r : List Scalar) :
    f.call args = some r ↔ f.ins = 0 ∧ r = f.outs ∧
      (f.outs = [] ∨ ∃ v, f.outs = [v] ∧ v.kind = .string) := by
  obtain ⟨ins, outs⟩ := f
  dsimp only at ha hl ⊢
  by_cases hi : ins = 0
  · subst hi
    obtain rfl : args = [] := by simpa using ha
    match outs, hl with
    | [], _ => simp [Func.call, eq_comm]
    | [v], hl =>
      by_cases hk : v.kind = .string
      · rw [call_partial v hk (hl v (by simp))]
        simp [hk, eq_comm]
      · rw [call_number_fails v hk]
        simp [hk]
    | v :: w :: vs, _ => simp [Func.call]
  · rw [call_args_fails _ _ hi]
    simp [hi]

end Verif.Ffi
