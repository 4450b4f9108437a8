import Verif.Abi.Lemmas
/-!
# C36: Go's register convention, C73: Go types, C74: locations, C76: dyncall, C77: C's conventions,
C78: pins
-/
namespace Verif.Abi

/-! ## C36 -/

/-- What `Internal` gives, opened up. -/
theorem internal_some {arch : String} {fn : Fn} {cc : CC} (h : internal arch fn = some cc) :
    ∃ lim, internalLim arch = some lim ∧
      cc.args = (assignAll (assign lim) ⟨0, 0, 0⟩ fn.args).1 ∧
      cc.rets = (assignAll (assign lim)
        ⟨0, 0, alignTo 8 (assignAll (assign lim) ⟨0, 0, 0⟩ fn.args).2.sp⟩ fn.rets).1 := by
  unfold internal at h
  split at h
  · cases h
  · split at h
    · cases h
    · rename_i lim hl
      refine ⟨lim, hl, ?_⟩
      simp only [Option.some.injEq] at h
      subst h
      exact ⟨rfl, rfl⟩

/-- The code's table is the one of Go's documentation. -/
theorem internalLim_eq (arch : String) : internalLim arch = goRegisters arch := by
  unfold goRegisters
  by_cases a : arch = "amd64"
  · subst a; rfl
  by_cases b : arch = "arm64"
  · subst b; rfl
  by_cases c : arch = "riscv64"
  · subst c; rfl
  by_cases d : arch = "ppc64"
  · subst d; rfl
  rw [if_neg a, if_neg (by simp [b, c]), if_neg d]
  unfold internalLim
  split <;> simp_all

/-- C36: a function has a calling convention exactly if it is not variadic and Go has a register
convention for the architecture. -/
theorem internal_accepts_iff (arch : String) (fn : Fn) :
    (internal arch fn).isSome ↔ fn.vars = false ∧ (goRegisters arch).isSome := by
  unfold internal
  rw [← internalLim_eq]
  cases fn.vars <;> cases internalLim arch <;> simp

/-- C36: the arguments use the first general-purpose and the first floating-point registers, each
one once and in order, and no more than the architecture has; and so do the results. -/
theorem internal_registers (arch : String) (fn : Fn) (cc : CC) (lim : Lim)
    (h : internal arch fn = some cc) (hl : goRegisters arch = some lim) :
    (∃ k, cc.args.flatMap Loc.regs = List.range k ∧ k ≤ lim.gpr) ∧
    (∃ k, cc.args.flatMap Loc.fps = List.range k ∧ k ≤ lim.fpr) ∧
    (∃ k, cc.rets.flatMap Loc.regs = List.range k ∧ k ≤ lim.gpr) ∧
    (∃ k, cc.rets.flatMap Loc.fps = List.range k ∧ k ≤ lim.fpr) := by
  obtain ⟨lim', hl', ea, er⟩ := internal_some h
  obtain rfl : lim = lim' := Option.some.inj (hl.symm.trans ((internalLim_eq arch).symm.trans hl'))
  obtain ⟨ki, kf, _, _, c, d, g, h⟩ := assignAll_regs lim fn.args ⟨0, 0, 0⟩ (Nat.zero_le _) (Nat.zero_le _)
  obtain ⟨ki', kf', _, _, c', d', g', h'⟩ := assignAll_regs lim fn.rets
    ⟨0, 0, alignTo 8 (assignAll (assign lim) ⟨0, 0, 0⟩ fn.args).2.sp⟩ (Nat.zero_le _) (Nat.zero_le _)
  simp only [Nat.zero_add] at c d c' d' g h g' h'
  rw [ea, er]
  refine ⟨⟨ki, ?_, c⟩, ⟨kf, ?_, d⟩, ⟨ki', ?_, c'⟩, ⟨kf', ?_, d'⟩⟩ <;>
    rw [List.range_eq_range'] <;> assumption

/-- The description of one argument, or of one result. -/
def Placed (lim : Lim) (before : List Loc) (v : Val) (l : Loc) : Prop :=
  if v.size = 0 then l = .none
  else if (before.flatMap Loc.regs).length + v.ints ≤ lim.gpr ∧
      (before.flatMap Loc.fps).length + v.floats ≤ lim.fpr then Mirrors v l
  else ∃ off, l = .hw (.stack off)

theorem assignAll_placed (lim : Lim) (vs : List Val) (sp i : Nat) (v : Val) (h : vs[i]? = some v) :
    ∃ l, (assignAll (assign lim) ⟨0, 0, sp⟩ vs).1[i]? = some l ∧
      Placed lim ((assignAll (assign lim) ⟨0, 0, sp⟩ vs).1.take i) v l := by
  refine ⟨_, assignAll_get (assign lim) vs ⟨0, 0, sp⟩ i v h, ?_⟩
  obtain ⟨ki, kf, a, b, c, d, g, e⟩ := assignAll_regs lim (vs.take i) ⟨0, 0, sp⟩ (Nat.zero_le _) (Nat.zero_le _)
  rw [assignAll_take] at g e
  unfold Placed
  rw [g, e, List.length_range', List.length_range']
  simp only [Nat.zero_add] at a b c d
  generalize (assignAll (assign lim) ⟨0, 0, sp⟩ (vs.take i)).2 = s at a b ⊢
  subst a b
  rcases assign_cases lim s v c d with ⟨z, e⟩ | ⟨z, f1, f2, l, e, m, _, _⟩ | ⟨z, f, e⟩
  · rw [if_pos z, e]
  · rw [if_neg z, if_pos ⟨f1, f2⟩, e]; exact m
  · rw [if_neg z, if_neg f, e]; exact ⟨_, rfl⟩

/-- C36: an argument that has no size has no place; one whose integers and floats all fit in the
registers that are left has each of them in a register of its own, in the shape of the value; any
other one is, as a whole, on the stack. The same holds for the results. -/
theorem internal_location (arch : String) (fn : Fn) (cc : CC) (lim : Lim)
    (h : internal arch fn = some cc) (hl : goRegisters arch = some lim) :
    (∀ (i : Nat) (v : Val), fn.args[i]? = some v →
      ∃ l, cc.args[i]? = some l ∧ Placed lim (cc.args.take i) v l) ∧
    (∀ (i : Nat) (v : Val), fn.rets[i]? = some v →
      ∃ l, cc.rets[i]? = some l ∧ Placed lim (cc.rets.take i) v l) := by
  obtain ⟨lim', hl', ea, er⟩ := internal_some h
  obtain rfl : lim = lim' := Option.some.inj (hl.symm.trans ((internalLim_eq arch).symm.trans hl'))
  rw [ea, er]
  exact ⟨fun i v hv => assignAll_placed lim fn.args _ i v hv,
    fun i v hv => assignAll_placed lim fn.rets _ i v hv⟩

/-- The slots of a convention on the stack. -/
def CC.slots (cc : CC) (fn : Fn) : List (Nat × Nat) :=
  Abi.slots Val.size (fn.args ++ fn.rets) (cc.args ++ cc.rets)

/-- C36: by the sizes of the values, no two of the arguments and results share stack. -/
theorem internal_stack_disjoint (arch : String) (fn : Fn) (cc : CC)
    (h : internal arch fn = some cc) (ha : ∀ v ∈ fn.args ++ fn.rets, v.align ≠ 0) :
    Disjoint (cc.slots fn) := by
  obtain ⟨lim, hl, ea, er⟩ := internal_some h
  unfold CC.slots
  rw [slots_append _ _ _ _ _ (by rw [ea, assignAll_length]), ea, er]
  obtain ⟨_, b, c⟩ := assignAll_slots lim fn.args ⟨0, 0, 0⟩ (Nat.zero_le _) (Nat.zero_le _)
    (fun v hv => ha v (List.mem_append_left _ hv))
  obtain ⟨_, b', c'⟩ := assignAll_slots lim fn.rets
    ⟨0, 0, alignTo 8 (assignAll (assign lim) ⟨0, 0, 0⟩ fn.args).2.sp⟩ (Nat.zero_le _) (Nat.zero_le _)
    (fun v hv => ha v (List.mem_append_right _ hv))
  refine List.pairwise_append.2 ⟨b, b', fun p hp q hq => ?_⟩
  have h1 := (c p hp).2
  have h2 := (c' q hq).1
  have h3 := le_alignTo 8 (assignAll (assign lim) ⟨0, 0, 0⟩ fn.args).2.sp (by omega)
  simp only at h2
  omega

/-- The arguments of a Go function are such values. -/
theorem go_values_have_alignment (t : GTy) (v : Val) (h : valueOf GTy.gsize t = some v) :
    v.align ≠ 0 := valueOf_align_pos t v h

/-- Ten words, of which one has to be on the stack, then a byte and a word that have to be as well. -/
def misaligned : Fn := { args := List.replicate 9 .b8 ++ [.b1, .b8], rets := [] }

/-- C36 fails: the word after a byte on the stack is not aligned. -/
theorem internal_stack_aligned_fails :
    ∃ cc, internal "amd64" misaligned = some cc ∧ cc.slots misaligned = [(0, 1), (1, 8)] := ⟨_, rfl, rfl⟩

/-- A byte and a word in a struct, twice. -/
def padded : GTy := .struct (.cons (.int 1) (.cons (.int 8) .nil))

/-- C36 fails: two structs of a byte and a word, 16 bytes each, are nine bytes apart. -/
theorem internal_stack_overlap_fails :
    padded.gsize = 16 ∧ ∃ v, valueOf GTy.gsize padded = some v ∧
      ∃ cc, internal "amd64" { args := List.replicate 9 .b8 ++ [v, v], rets := [] } = some cc ∧
        cc.args.drop 9 = [.hw (.stack 0), .hw (.stack 9)] := ⟨by decide +kernel, _, rfl, _, rfl, rfl⟩

/-- C36, in part: with values of whole words only, the slots are aligned as well. -/
theorem internal_stack_aligned_partial (arch : String) (fn : Fn) (cc : CC)
    (h : internal arch fn = some cc) (ha : ∀ v ∈ fn.args ++ fn.rets, v.size ≠ 0 ∧ 8 ∣ v.size) :
    ∀ p ∈ cc.slots fn, 8 ∣ p.1 := by
  obtain ⟨lim, hl, ea, er⟩ := internal_some h
  unfold CC.slots
  rw [slots_append _ _ _ _ _ (by rw [ea, assignAll_length]), ea, er]
  obtain ⟨_, b⟩ := assignAll_aligned lim fn.args ⟨0, 0, 0⟩ (Nat.zero_le _) (Nat.zero_le _)
    (fun v hv => ha v (List.mem_append_left _ hv)) (Nat.dvd_zero _)
  obtain ⟨_, b'⟩ := assignAll_aligned lim fn.rets
    ⟨0, 0, alignTo 8 (assignAll (assign lim) ⟨0, 0, 0⟩ fn.args).2.sp⟩ (Nat.zero_le _) (Nat.zero_le _)
    (fun v hv => ha v (List.mem_append_right _ hv)) (alignTo_dvd _ _ (by omega))
  intro p hp
  rcases List.mem_append.1 hp with hp | hp
  · exact b p hp
  · exact b' p hp

/-- The struct that holds all the registers of amd64 (reg.go:7-43, cpu_amd64.go:3-7): it has every
register of the machine, each one at its own number; with one integer more it is on the stack. -/
example : internal "amd64" { args := [.struct (vals [.b8, .b8, .f8, .b8, .b8, .f8, .b8, .b8, .f8, .b8,
      .b8, .b8, .f8, .f8, .f8, .f8, .f8, .f8, .f8, .f8, .f8, .f8, .f8, .f8])], rets := [] } =
    some ⟨[.multi (.cons (.hw (.reg 0)) (.cons (.hw (.reg 1)) (.cons (.hw (.fp 0)) (.cons (.hw (.reg 2))
      (.cons (.hw (.reg 3)) (.cons (.hw (.fp 1)) (.cons (.hw (.reg 4)) (.cons (.hw (.reg 5))
      (.cons (.hw (.fp 2)) (.cons (.hw (.reg 6)) (.cons (.hw (.reg 7)) (.cons (.hw (.reg 8))
      (.cons (.hw (.fp 3)) (.cons (.hw (.fp 4)) (.cons (.hw (.fp 5)) (.cons (.hw (.fp 6))
      (.cons (.hw (.fp 7)) (.cons (.hw (.fp 8)) (.cons (.hw (.fp 9)) (.cons (.hw (.fp 10))
      (.cons (.hw (.fp 11)) (.cons (.hw (.fp 12)) (.cons (.hw (.fp 13)) (.cons (.hw (.fp 14))
      .nil))))))))))))))))))))))))], [], none⟩ := rfl

example : ∃ cc, internal "amd64" { args := [.struct (vals (List.replicate 10 .b8)), .b8, .b1], rets := [.b4] } =
    some cc ∧ cc.args = [.hw (.stack 0), .hw (.reg 0), .hw (.reg 1)] ∧ cc.rets = [.hw (.reg 0)] := ⟨_, rfl, rfl, rfl⟩

/-- The stack pointer is lost by a struct without fields: no Go type gives one. -/
theorem empty_struct_loses_the_stack :
    ∃ cc, internal "amd64" { args := List.replicate 9 .b8 ++ [.b8, .struct .nil, .b8], rets := [] } = some cc ∧
      cc.args.drop 9 = [.hw (.stack 0), .none, .hw (.stack 0)] := ⟨_, rfl, rfl⟩

/-! ## C73 -/

/-- C73: a Go type has a value exactly if it has no array in it that takes up memory; with one, asking for
its value panics. -/
theorem value_panics_iff (t : GTy) (h : t.ok) : valueOf GTy.gsize t = none ↔ ¬ t.noArray := by
  rw [← valueOf_isSome t h, Option.not_isSome_iff_eq_none]

/-- C73: the size of the value is the size of the type without its padding. -/
theorem value_size (t : GTy) (v : Val) (h : valueOf GTy.gsize t = some v) :
    v.size = t.payload ∧ v.size ≤ t.gsize := by
  have := valueOf_size t v h
  exact ⟨this, this ▸ payload_le t⟩

/-- C73 fails: arrays, and structs with padding. -/
theorem value_size_fails :
    valueOf GTy.gsize (.array 2 (.int 8)) = none ∧
    ∃ v, valueOf GTy.gsize padded = some v ∧ v.size = 9 ∧ padded.gsize = 16 :=
  ⟨by rfl, _, rfl, rfl, by decide +kernel⟩

/-- C73, in part: without padding the size is right. -/
theorem value_size_partial (t : GTy) (v : Val) (h : valueOf GTy.gsize t = some v)
    (hp : t.payload = t.gsize) : v.size = t.gsize := hp ▸ valueOf_size t v h

example : valueOf GTy.gsize (.struct (.cons .string (.cons .ptr (.cons (.struct (.cons (.int 4) (.cons .float32 .nil))) .nil)))) =
      some (.struct (vals [.struct (vals [.mem, .sizing]), .mem, .struct (vals [.b4, .f4])])) ∧
    (GTy.struct (.cons .string (.cons .ptr (.cons (.struct (.cons (.int 4) (.cons .float32 .nil))) .nil)))).gsize = 32 ∧
    (GTy.struct (.cons .string (.cons .ptr (.cons (.struct (.cons (.int 4) (.cons .float32 .nil))) .nil)))).payload = 32 := by
  decide +kernel

/-! ## C74 -/

/-- C74: two locations are found equal exactly if they are the same hardware location or the same
location by reference. -/
theorem equals_iff (a b : Loc) :
    a.equals b = some true ↔ a = b ∧ ((∃ h, a = .hw h) ∨ ∃ l, a = .indirect l) := by
  cases a <;> cases b <;> simp [Loc.equals]

/-- C74 fails: values in several registers, returned values and values without a place are not equal
to themselves, so that a string passed in the same registers is still moved. -/
theorem equals_refl_fails :
    (∀ ls bs, Loc.equals (.multi ls) (.multi bs) ≠ some true) ∧
    Loc.equals .returned .returned = some false ∧ Loc.equals .none .none = some false := by
  refine ⟨fun ls bs => ?_, rfl, rfl⟩
  simp only [Loc.equals]
  cases ls.equals bs <;> simp

/-- C74 fails: comparing with a shorter list of places panics. -/
theorem equals_panics : Loc.equals (.multi (.cons (.hw (.reg 0)) (.cons (.hw (.reg 1)) .nil)))
    (.multi (.cons (.hw (.reg 0)) .nil)) = none := rfl

example : Loc.equals (.hw (.reg 3)) (.hw (.reg 3)) = some true ∧
    Loc.equals (.hw (.reg 3)) (.hw (.fp 3)) = some false := ⟨rfl, rfl⟩

/-! ## C76 -/

/-- C76: dyncall can be used exactly by the functions whose arguments, and whose only result if there is
one, are single values; then every argument is pushed with its own width, and the call asks for the
width of the result. -/
theorem cgo_iff (fn : Fn) (cc : CC) : cgo fn = some cc ↔
    (∀ v ∈ fn.args ++ fn.rets, v ≠ .b0 ∧ ∀ fs, v ≠ .struct fs) ∧ fn.rets.length ≤ 1 ∧
    cc = ⟨fn.args.map (fun v => .hw (.push v)), fn.rets.map (fun _ => .returned), some fn.rets.head?⟩ := by
  have sc : ∀ v : Val, scalar v = true ↔ v ≠ .b0 ∧ ∀ fs, v ≠ .struct fs := by
    intro v; cases v <;> simp [scalar]
  unfold cgo
  by_cases h : fn.args.all scalar
  · rw [if_pos h]
    have h' : ∀ v ∈ fn.args, v ≠ .b0 ∧ ∀ fs, v ≠ .struct fs := fun v hv =>
      (sc v).1 (List.all_eq_true.1 h v hv)
    match hr : fn.rets with
    | [] =>
      simp only [Option.some.injEq, List.append_nil, List.length_nil, List.map_nil, List.head?_nil]
      exact ⟨fun e => ⟨h', by omega, e.symm⟩, fun e => e.2.2.symm⟩
    | [v] =>
      simp only [List.length_singleton, List.map_cons, List.map_nil, List.head?_cons]
      by_cases hv : scalar v = true
      · rw [if_pos hv]
        simp only [Option.some.injEq]
        refine ⟨fun e => ⟨?_, by omega, e.symm⟩, fun e => e.2.2.symm⟩
        intro w hw
        rcases List.mem_append.1 hw with hw | hw
        · exact h' w hw
        · rw [List.mem_singleton.1 hw]; exact (sc v).1 hv
      · rw [if_neg hv]
        refine ⟨fun e => (by cases e), fun e => absurd ((sc v).2 (e.1 v ?_)) hv⟩
        simp
    | a :: b :: l =>
      simp
  · rw [if_neg h]
    refine ⟨fun e => (by cases e), fun e => absurd ?_ h⟩
    exact List.all_eq_true.2 fun v hv => (sc v).2 (e.1 v (List.mem_append_left _ hv))

example : cgo { args := [.b4, .f8, .mem], rets := [.b8] } =
    some ⟨[.hw (.push .b4), .hw (.push .f8), .hw (.push .mem)], [.returned], some (some .b8)⟩ := rfl

/-- C76 fails for Go's stack convention: it panics for every function that has arguments or results. -/
theorem zero_fails (fn : Fn) : (zero fn).isSome ↔ fn.vars = false ∧ fn.args = [] ∧ fn.rets = [] := by
  unfold zero
  cases fn with
  | mk vars args rets => cases vars <;> cases args <;> cases rets <;> simp

/-! ## C78 -/

mutual
/-- How many pointers are in a value. -/
def Val.ptrs : Val → Nat
  | .mem => 1
  | .struct fs => fs.ptrs
  | _ => 0
/-- The same for fields. -/
def Vals.ptrs : Vals → Nat
  | .nil => 0
  | .cons v vs => v.ptrs + vs.ptrs
end

mutual
/-- Register `n` holds a pointer of the value. -/
def Holds (n : Nat) : Val → Loc → Prop
  | .mem, .hw (.reg m) => n = m
  | .struct fs, .multi ls => HoldsAny n fs ls
  | _, _ => False
/-- The same for fields. -/
def HoldsAny (n : Nat) : Vals → Locs → Prop
  | .cons v vs, .cons l ls => Holds n v l ∨ HoldsAny n vs ls
  | _, _ => False
end

mutual
theorem pin_mirrors : ∀ (v : Val) (l : Loc), Mirrors v l →
    ∃ ps, v.pin l = some ps ∧ ps.length = v.ptrs ∧ ∀ n, n ∈ ps ↔ Holds n v l
  | .mem, l, h => by
    cases l with
    | hw w => cases w <;> simp [Mirrors] at h ⊢ <;> simp [Val.pin, Val.ptrs, Holds]
    | _ => simp [Mirrors] at h
  | .struct fs, l, h => by
    cases l with
    | multi ls =>
      simp only [Mirrors] at h
      simpa [Val.pin, Val.ptrs, Holds] using pins_mirrors fs ls h
    | _ => simp [Mirrors] at h
  | .b0, l, h | .b1, l, h | .b2, l, h | .b4, l, h | .b8, l, h | .f4, l, h | .f8, l, h | .sizing, l, h => by
    simp [Val.pin, Val.ptrs, Holds]
theorem pins_mirrors : ∀ (vs : Vals) (ls : Locs), MirrorsAll vs ls →
    ∃ ps, vs.pin ls = some ps ∧ ps.length = vs.ptrs ∧ ∀ n, n ∈ ps ↔ HoldsAny n vs ls
  | .nil, ls, h => by
    cases ls with
    | nil => simp [Vals.pin, Vals.ptrs, HoldsAny]
    | cons => simp [MirrorsAll] at h
  | .cons v vs, ls, h => by
    cases ls with
    | nil => simp [MirrorsAll] at h
    | cons l ls =>
      simp only [MirrorsAll] at h
      obtain ⟨ps, a, b, c⟩ := pin_mirrors v l h.1
      obtain ⟨ps', a', b', c'⟩ := pins_mirrors vs ls h.2
      refine ⟨ps ++ ps', by simp [Vals.pin, a, a'], by simp [Vals.ptrs, b, b'], fun n => ?_⟩
      rw [List.mem_append, c n, c' n]
      simp [HoldsAny]
end

/-- C78: for an argument that is in registers, the pinned registers are exactly those that hold its
pointers, one for each. -/
theorem pins_are_the_pointers_partial (arch : String) (fn : Fn) (cc : CC) (lim : Lim)
    (h : internal arch fn = some cc) (hl : goRegisters arch = some lim) (i : Nat) (v : Val) (l : Loc)
    (hv : fn.args[i]? = some v) (hloc : cc.args[i]? = some l) (hs : v.size ≠ 0)
    (hf : ((cc.args.take i).flatMap Loc.regs).length + v.ints ≤ lim.gpr ∧
      ((cc.args.take i).flatMap Loc.fps).length + v.floats ≤ lim.fpr) :
    ∃ ps, v.pin l = some ps ∧ ps.length = v.ptrs ∧ ∀ n, n ∈ ps ↔ Holds n v l := by
  obtain ⟨l', e, p⟩ := (internal_location arch fn cc lim h hl).1 i v hv
  obtain rfl : l' = l := Option.some.inj (e.symm.trans hloc)
  unfold Placed at p
  rw [if_neg hs, if_pos hf] at p
  exact pin_mirrors v l' p

/-- C78 fails: for a string that is on the stack it panics, and a pointer on the stack is not pinned. -/
theorem pins_on_stack_fails :
    (∃ cc, internal "amd64" { args := List.replicate 8 .b8 ++ [.struct (vals [.mem, .sizing])], rets := [] } =
      some cc ∧ cc.args[8]? = some (.hw (.stack 0))) ∧
    Val.pin (.struct (vals [.mem, .sizing])) (.hw (.stack 0)) = none ∧
    Val.pin .mem (.hw (.stack 0)) = some [] := ⟨⟨_, rfl, rfl⟩, rfl, rfl⟩

example : Val.pin (.struct (vals [.mem, .sizing])) (.multi (.cons (.hw (.reg 4)) (.cons (.hw (.reg 5)) .nil))) =
    some [4] := rfl

end Verif.Abi
