import Verif.Abi.Spec
import Mathlib.Data.List.Range
/-!
# Lemmas about calling conventions
-/
namespace Verif.Abi

theorem within_some {lim : Lim} {r : Loc × Nat × Nat} {o : Loc × Nat × Nat} :
    within lim r = some o ↔ r = o ∧ r.2.1 ≤ lim.gpr ∧ r.2.2 ≤ lim.fpr := by
  unfold within
  split
  · constructor
    · intro h; cases h
    · rintro ⟨rfl, a, b⟩; omega
  · constructor
    · intro h; cases h; exact ⟨rfl, by omega, by omega⟩
    · rintro ⟨rfl, _, _⟩; rfl

/-- What `assignReg` gives when it does. -/
def RegOk (lim : Lim) (ints floats : Nat) (regs fps : List Nat) (r x r' x' : Nat) : Prop :=
  r' = r + ints ∧ x' = x + floats ∧ regs = List.range' r ints ∧ fps = List.range' x floats ∧
    (r ≤ lim.gpr → r' ≤ lim.gpr) ∧ (x ≤ lim.fpr → x' ≤ lim.fpr)

mutual
theorem assignReg_ok (lim : Lim) : ∀ (v : Val) (r x : Nat) (l : Loc) (r' x' : Nat),
    assignReg lim v r x = some (l, r', x') →
    Mirrors v l ∧ RegOk lim v.ints v.floats l.regs l.fps r x r' x'
  | .b0, r, x, l, r', x', h => by
    simp only [assignReg, Option.some.injEq, Prod.mk.injEq] at h
    obtain ⟨rfl, rfl, rfl⟩ := h
    simp [Mirrors, RegOk, Val.ints, Val.floats, Loc.regs, Loc.fps]
  | .b1, r, x, l, r', x', h | .b2, r, x, l, r', x', h | .b4, r, x, l, r', x', h
  | .b8, r, x, l, r', x', h | .mem, r, x, l, r', x', h | .sizing, r, x, l, r', x', h => by
    simp only [assignReg, within_some, Prod.mk.injEq] at h
    obtain ⟨⟨rfl, rfl, rfl⟩, h1, h2⟩ := h
    simp [Mirrors, RegOk, Val.ints, Val.floats, Loc.regs, Loc.fps]; exact fun _ => h1
  | .f4, r, x, l, r', x', h | .f8, r, x, l, r', x', h => by
    simp only [assignReg, within_some, Prod.mk.injEq] at h
    obtain ⟨⟨rfl, rfl, rfl⟩, h1, h2⟩ := h
    simp [Mirrors, RegOk, Val.ints, Val.floats, Loc.regs, Loc.fps]; exact fun _ => h2
  | .struct fs, r, x, l, r', x', h => by
    simp only [assignReg, Option.bind_eq_bind, Option.bind_eq_some_iff] at h
    obtain ⟨⟨ls, a, b⟩, h1, h2⟩ := h
    simp only [within_some, Prod.mk.injEq] at h2
    obtain ⟨⟨rfl, rfl, rfl⟩, h3, h4⟩ := h2
    obtain ⟨m, ok⟩ := assignRegs_ok lim fs r x ls a b h1
    exact ⟨by simpa [Mirrors] using m, by simpa [RegOk, Val.ints, Val.floats, Loc.regs, Loc.fps] using ok⟩
theorem assignRegs_ok (lim : Lim) : ∀ (vs : Vals) (r x : Nat) (ls : Locs) (r' x' : Nat),
    assignRegs lim vs r x = some (ls, r', x') →
    MirrorsAll vs ls ∧ RegOk lim vs.ints vs.floats ls.regs ls.fps r x r' x'
  | .nil, r, x, ls, r', x', h => by
    simp only [assignRegs, Option.some.injEq, Prod.mk.injEq] at h
    obtain ⟨rfl, rfl, rfl⟩ := h
    simp [MirrorsAll, RegOk, Vals.ints, Vals.floats, Locs.regs, Locs.fps]
  | .cons v vs, r, x, ls, r', x', h => by
    simp only [assignRegs, Option.bind_eq_bind, Option.bind_eq_some_iff] at h
    obtain ⟨⟨l, a, b⟩, h1, ⟨ls', a', b'⟩, h2, h3⟩ := h
    simp only [Option.some.injEq, Prod.mk.injEq] at h3
    obtain ⟨rfl, rfl, rfl⟩ := h3
    obtain ⟨m, e1, e2, e3, e4, e5, e6⟩ := assignReg_ok lim v r x l a b h1
    obtain ⟨m', f1, f2, f3, f4, f5, f6⟩ := assignRegs_ok lim vs a b ls' a' b' h2
    refine ⟨⟨m, m'⟩, ?_, ?_, ?_, ?_, ?_, ?_⟩
    · simp only [Vals.ints]; omega
    · simp only [Vals.floats]; omega
    · simp only [Vals.ints, Locs.regs, e3, f3, e1]
      rw [← List.range'_append_1]
    · simp only [Vals.floats, Locs.fps, e4, f4, e2]
      rw [← List.range'_append_1]
    · exact fun h => f5 (e5 h)
    · exact fun h => f6 (e6 h)
end

mutual
theorem assignReg_fits (lim : Lim) : ∀ (v : Val) (r x : Nat), r ≤ lim.gpr → x ≤ lim.fpr →
    r + v.ints ≤ lim.gpr → x + v.floats ≤ lim.fpr → (assignReg lim v r x).isSome
  | .b0, r, x, _, _, _, _ => rfl
  | .b1, r, x, _, h0, h1, _ | .b2, r, x, _, h0, h1, _ | .b4, r, x, _, h0, h1, _
  | .b8, r, x, _, h0, h1, _ | .mem, r, x, _, h0, h1, _ | .sizing, r, x, _, h0, h1, _ => by
    simp only [Val.ints] at h1
    have : within lim (Loc.hw (.reg r), r + 1, x) = some (Loc.hw (.reg r), r + 1, x) :=
      within_some.2 ⟨rfl, h1, h0⟩
    simp [assignReg, this]
  | .f4, r, x, h0, _, _, h1 | .f8, r, x, h0, _, _, h1 => by
    simp only [Val.floats] at h1
    have : within lim (Loc.hw (.fp x), r, x + 1) = some (Loc.hw (.fp x), r, x + 1) :=
      within_some.2 ⟨rfl, h0, h1⟩
    simp [assignReg, this]
  | .struct fs, r, x, h0, h1, h2, h3 => by
    simp only [Val.ints, Val.floats] at h2 h3
    obtain ⟨⟨ls, a, b⟩, e⟩ := Option.isSome_iff_exists.1 (assignRegs_fits lim fs r x h0 h1 h2 h3)
    obtain ⟨_, _, _, _, _, f5, f6⟩ := assignRegs_ok lim fs r x ls a b e
    have : within lim (.multi ls, a, b) = some (.multi ls, a, b) :=
      within_some.2 ⟨rfl, f5 h0, f6 h1⟩
    simp [assignReg, e, this]
theorem assignRegs_fits (lim : Lim) : ∀ (vs : Vals) (r x : Nat), r ≤ lim.gpr → x ≤ lim.fpr →
    r + vs.ints ≤ lim.gpr → x + vs.floats ≤ lim.fpr → (assignRegs lim vs r x).isSome
  | .nil, _, _, _, _, _, _ => rfl
  | .cons v vs, r, x, h0, h1, h2, h3 => by
    simp only [Vals.ints, Vals.floats] at h2 h3
    obtain ⟨⟨l, a, b⟩, e⟩ := Option.isSome_iff_exists.1
      (assignReg_fits lim v r x h0 h1 (by omega) (by omega))
    obtain ⟨_, e1, e2, _, _, e5, e6⟩ := assignReg_ok lim v r x l a b e
    obtain ⟨⟨ls, a', b'⟩, e'⟩ := Option.isSome_iff_exists.1
      (assignRegs_fits lim vs a b (e5 h0) (e6 h1) (by omega) (by omega))
    simp [assignRegs, e, e']
end

theorem assignReg_isSome_iff (lim : Lim) (v : Val) (r x : Nat) (h0 : r ≤ lim.gpr) (h1 : x ≤ lim.fpr) :
    (assignReg lim v r x).isSome ↔ r + v.ints ≤ lim.gpr ∧ x + v.floats ≤ lim.fpr := by
  constructor
  · intro h
    obtain ⟨⟨l, a, b⟩, e⟩ := Option.isSome_iff_exists.1 h
    obtain ⟨_, e1, e2, _, _, e5, e6⟩ := assignReg_ok lim v r x l a b e
    have := e5 h0; have := e6 h1
    omega
  · exact fun ⟨a, b⟩ => assignReg_fits lim v r x h0 h1 a b

/-- One step of `assign`, described. -/
theorem assign_cases (lim : Lim) (s : St) (v : Val) (hr : s.r ≤ lim.gpr) (hx : s.x ≤ lim.fpr) :
    (v.size = 0 ∧ assign lim s v = (.none, { s with sp := alignTo v.align s.sp })) ∨
    (v.size ≠ 0 ∧ s.r + v.ints ≤ lim.gpr ∧ s.x + v.floats ≤ lim.fpr ∧ ∃ l,
      assign lim s v = (l, { s with r := s.r + v.ints, x := s.x + v.floats }) ∧ Mirrors v l ∧
      l.regs = List.range' s.r v.ints ∧ l.fps = List.range' s.x v.floats) ∨
    (v.size ≠ 0 ∧ ¬ (s.r + v.ints ≤ lim.gpr ∧ s.x + v.floats ≤ lim.fpr) ∧
      assign lim s v = (.hw (.stack s.sp), { s with sp := s.sp + v.size })) := by
  unfold assign
  by_cases h : v.size = 0
  · left; rw [if_pos h]; exact ⟨h, rfl⟩
  · rw [if_neg h]
    right
    by_cases f : s.r + v.ints ≤ lim.gpr ∧ s.x + v.floats ≤ lim.fpr
    · left
      obtain ⟨⟨l, a, b⟩, e⟩ := Option.isSome_iff_exists.1
        ((assignReg_isSome_iff lim v s.r s.x hr hx).2 f)
      obtain ⟨m, e1, e2, e3, e4, _, _⟩ := assignReg_ok lim v s.r s.x l a b e
      refine ⟨h, f.1, f.2, l, ?_, m, e3, e4⟩
      rw [e, e1, e2]
    · right
      refine ⟨h, f, ?_⟩
      have : assignReg lim v s.r s.x = none := by
        rw [← Option.not_isSome_iff_eq_none, assignReg_isSome_iff lim v s.r s.x hr hx]
        exact f
      rw [this]

theorem assignAll_length (f : St → Val → Loc × St) (vs : List Val) : ∀ s,
    (assignAll f s vs).1.length = vs.length := by
  induction vs with
  | nil => intro s; rfl
  | cons v vs ih => intro s; simp only [assignAll, List.length_cons, ih]

theorem assignAll_take (f : St → Val → Loc × St) (vs : List Val) : ∀ (s : St) (i : Nat),
    (assignAll f s (vs.take i)).1 = (assignAll f s vs).1.take i := by
  induction vs with
  | nil => intro s i; simp [assignAll]
  | cons v vs ih =>
    intro s i
    cases i with
    | zero => simp [assignAll]
    | succ i => simp [assignAll, ih]

theorem assignAll_get (f : St → Val → Loc × St) (vs : List Val) : ∀ (s : St) (i : Nat) (v : Val),
    vs[i]? = some v → (assignAll f s vs).1[i]? = some (f (assignAll f s (vs.take i)).2 v).1 := by
  induction vs with
  | nil => intro s i v h; simp at h
  | cons w vs ih =>
    intro s i v h
    cases i with
    | zero =>
      simp only [List.getElem?_cons_zero, Option.some.injEq] at h
      subst h
      simp [assignAll]
    | succ i =>
      simp only [List.getElem?_cons_succ] at h
      simpa [assignAll] using ih (f s w).2 i v h

/-- The registers after a list of values. -/
theorem assignAll_regs (lim : Lim) (vs : List Val) : ∀ s : St, s.r ≤ lim.gpr → s.x ≤ lim.fpr →
    ∃ ki kf, (assignAll (assign lim) s vs).2.r = s.r + ki ∧
      (assignAll (assign lim) s vs).2.x = s.x + kf ∧ s.r + ki ≤ lim.gpr ∧ s.x + kf ≤ lim.fpr ∧
      (assignAll (assign lim) s vs).1.flatMap Loc.regs = List.range' s.r ki ∧
      (assignAll (assign lim) s vs).1.flatMap Loc.fps = List.range' s.x kf := by
  induction vs with
  | nil => intro s hr hx; exact ⟨0, 0, rfl, rfl, hr, hx, rfl, rfl⟩
  | cons v vs ih =>
    intro s hr hx
    rcases assign_cases lim s v hr hx with ⟨_, e⟩ | ⟨_, f1, f2, l, e, _, e3, e4⟩ | ⟨_, _, e⟩
    · obtain ⟨ki, kf, a, b, c, d, g, h⟩ := ih { s with sp := alignTo v.align s.sp } hr hx
      refine ⟨ki, kf, ?_, ?_, c, d, ?_, ?_⟩ <;> simp only [assignAll, e]
      · exact a
      · exact b
      · simpa [Loc.regs] using g
      · simpa [Loc.fps] using h
    · obtain ⟨ki, kf, a, b, c, d, g, h⟩ :=
        ih { s with r := s.r + v.ints, x := s.x + v.floats } f1 f2
      simp only at a b c d g h
      refine ⟨v.ints + ki, v.floats + kf, ?_, ?_, by omega, by omega, ?_, ?_⟩ <;>
        simp only [assignAll, e]
      · omega
      · omega
      · rw [List.flatMap_cons, e3, g, List.range'_append_1]
      · rw [List.flatMap_cons, e4, h, List.range'_append_1]
    · obtain ⟨ki, kf, a, b, c, d, g, h⟩ := ih { s with sp := s.sp + v.size } hr hx
      refine ⟨ki, kf, ?_, ?_, c, d, ?_, ?_⟩ <;> simp only [assignAll, e]
      · exact a
      · exact b
      · simpa [Loc.regs] using g
      · simpa [Loc.fps] using h

theorem le_alignTo (n sp : Nat) (h : n ≠ 0) : sp ≤ alignTo n sp := by
  unfold alignTo
  rw [if_neg h]
  have h1 := Nat.div_add_mod (sp + n - 1) n
  have h2 := Nat.mod_lt (sp + n - 1) (Nat.pos_of_ne_zero h)
  rw [Nat.mul_comm] at h1
  omega

theorem alignTo_dvd (n sp : Nat) (h : n ≠ 0) : n ∣ alignTo n sp := by
  unfold alignTo
  rw [if_neg h]
  exact Nat.dvd_mul_left _ _

theorem alignTo_le (n sp : Nat) (h : n ≠ 0) : alignTo n sp < sp + n := by
  unfold alignTo
  rw [if_neg h]
  have h1 := Nat.div_mul_le_self (sp + n - 1) n
  omega

/-- A mirror of a value is never a place on the stack. -/
theorem mirrors_not_stack {v : Val} {off : Nat} : ¬ Mirrors v (.hw (.stack off)) := by
  cases v <;> simp [Mirrors]

theorem slots_cons_mirror {size : Val → Nat} {v : Val} {l : Loc} {vs : List Val} {ls : List Loc}
    (h : Mirrors v l) : slots size (v :: vs) (l :: ls) = slots size vs ls := by
  cases l with
  | hw h' => cases h' <;> first | rfl | exact (mirrors_not_stack h).elim
  | _ => rfl

/-- The stack after a list of values. -/
theorem assignAll_slots (lim : Lim) (vs : List Val) : ∀ s : St, s.r ≤ lim.gpr → s.x ≤ lim.fpr →
    (∀ v ∈ vs, v.align ≠ 0) →
    s.sp ≤ (assignAll (assign lim) s vs).2.sp ∧
    Disjoint (slots Val.size vs (assignAll (assign lim) s vs).1) ∧
    ∀ p ∈ slots Val.size vs (assignAll (assign lim) s vs).1,
      s.sp ≤ p.1 ∧ p.1 + p.2 ≤ (assignAll (assign lim) s vs).2.sp := by
  induction vs with
  | nil => intro s _ _ _; exact ⟨Nat.le_refl _, List.Pairwise.nil, by simp [slots]⟩
  | cons v vs ih =>
    intro s hr hx ha
    have ha' : ∀ v ∈ vs, v.align ≠ 0 := fun v hv => ha v (List.mem_cons_of_mem _ hv)
    rcases assign_cases lim s v hr hx with ⟨_, e⟩ | ⟨_, f1, f2, l, e, m, _, _⟩ | ⟨_, _, e⟩
    · obtain ⟨a, b, c⟩ := ih { s with sp := alignTo v.align s.sp } hr hx ha'
      have := le_alignTo v.align s.sp (ha v (List.mem_cons_self ..))
      simp only at a c
      simp only [assignAll, e]
      refine ⟨by omega, b, fun p hp => ?_⟩
      have := c p hp
      omega
    · obtain ⟨a, b, c⟩ := ih { s with r := s.r + v.ints, x := s.x + v.floats } f1 f2 ha'
      simp only at a c
      simp only [assignAll, e, slots_cons_mirror m]
      exact ⟨a, b, c⟩
    · obtain ⟨a, b, c⟩ := ih { s with sp := s.sp + v.size } hr hx ha'
      simp only at a c
      simp only [assignAll, e, slots]
      refine ⟨by omega, List.Pairwise.cons ?_ b, ?_⟩
      · exact fun p hp => (c p hp).1
      · intro p hp
        rcases List.mem_cons.1 hp with rfl | hp
        · exact ⟨Nat.le_refl _, a⟩
        · have := c p hp
          omega

/-- The slots are aligned, if every value has a whole number of words. -/
theorem assignAll_aligned (lim : Lim) (vs : List Val) : ∀ s : St, s.r ≤ lim.gpr → s.x ≤ lim.fpr →
    (∀ v ∈ vs, v.size ≠ 0 ∧ 8 ∣ v.size) → 8 ∣ s.sp →
    8 ∣ (assignAll (assign lim) s vs).2.sp ∧
    ∀ p ∈ slots Val.size vs (assignAll (assign lim) s vs).1, 8 ∣ p.1 := by
  induction vs with
  | nil => intro s _ _ _ h; exact ⟨h, by simp [slots]⟩
  | cons v vs ih =>
    intro s hr hx ha hs
    have ha' : ∀ v ∈ vs, v.size ≠ 0 ∧ 8 ∣ v.size := fun v hv => ha v (List.mem_cons_of_mem _ hv)
    have hv := ha v (List.mem_cons_self ..)
    rcases assign_cases lim s v hr hx with ⟨z, _⟩ | ⟨_, f1, f2, l, e, m, _, _⟩ | ⟨_, _, e⟩
    · exact absurd z hv.1
    · obtain ⟨a, b⟩ := ih { s with r := s.r + v.ints, x := s.x + v.floats } f1 f2 ha' hs
      simp only [assignAll, e, slots_cons_mirror m]
      exact ⟨a, b⟩
    · obtain ⟨a, b⟩ := ih { s with sp := s.sp + v.size } hr hx ha' ((Nat.dvd_add_right hs).2 hv.2)
      simp only [assignAll, e, slots]
      refine ⟨a, fun p hp => ?_⟩
      rcases List.mem_cons.1 hp with rfl | hp
      · exact hs
      · exact b p hp

theorem slots_append (size : Val → Nat) (vs : List Val) (ls : List Loc) (vs' : List Val)
    (ls' : List Loc) : vs.length = ls.length →
    slots size (vs ++ vs') (ls ++ ls') = slots size vs ls ++ slots size vs' ls' := by
  induction vs generalizing ls with
  | nil => intro h; cases ls with
    | nil => rfl
    | cons => simp at h
  | cons v vs ih =>
    intro h
    cases ls with
    | nil => simp at h
    | cons l ls =>
      have := ih ls (by simpa using h)
      cases l with
      | hw h' => cases h' <;> simp [slots, this]
      | _ => simp [slots, this]

/-! ## Go types -/

theorem le_roundUp (n off : Nat) : off ≤ roundUp n off := by
  unfold roundUp; split <;> omega

mutual
theorem payload_le : ∀ t : GTy, t.payload ≤ t.gsize
  | .int _ | .float32 | .float64 | .complex64 | .complex128 | .slice | .string | .iface | .ptr => by
    simp [GTy.payload]
  | .array n t => by
    simp only [GTy.payload, GTy.gsize]
    exact Nat.mul_le_mul_left _ (payload_le t)
  | .struct fs => by
    simp only [GTy.payload, GTy.gsize]
    have := payloads_le fs 0
    have := le_roundUp fs.galign (fs.extent 0)
    omega
theorem payloads_le : ∀ (fs : GTys) (off : Nat), off + fs.payload ≤ fs.extent off
  | .nil, off => by simp [GTys.payload, GTys.extent]
  | .cons t .nil, off => by
    have := payload_le t
    have := le_roundUp t.galign off
    simp only [GTys.payload, GTys.extent]
    split <;> omega
  | .cons t (.cons u ts), off => by
    have h1 := payload_le t
    have h2 := le_roundUp t.galign off
    have h3 := payloads_le (.cons u ts) (roundUp t.galign off + t.gsize)
    simp only [GTys.payload, GTys.extent] at h3 ⊢
    omega
end

mutual
theorem valueOf_size : ∀ (t : GTy) (v : Val), valueOf GTy.gsize t = some v → v.size = t.payload
  | .int w, v, h => by
    unfold valueOf at h
    split at h <;> simp at * <;> subst_vars <;> simp [Val.size, GTy.payload, GTy.gsize]
    all_goals simp_all [Val.size]
  | .float32, v, h | .float64, v, h | .complex64, v, h | .complex128, v, h | .slice, v, h
  | .string, v, h | .iface, v, h | .ptr, v, h => by
    simp only [valueOf, Option.some.injEq] at h
    subst h
    simp [Val.size, Vals.size, vals, GTy.payload, GTy.gsize]
  | .array n t, v, h => by
    simp only [valueOf] at h
    split at h
    · rename_i hz
      simp only [Option.some.injEq] at h
      subst h
      have := payload_le (.array n t)
      simp only [Val.size]; omega
    · simp at h
  | .struct fs, v, h => by
    simp only [valueOf] at h
    split at h
    · rename_i hz
      simp only [Option.some.injEq] at h
      subst h
      have := payload_le (.struct fs)
      simp only [Val.size]; omega
    · simp only [Option.map_eq_some_iff] at h
      obtain ⟨vs, h1, rfl⟩ := h
      simpa [Val.size, GTy.payload] using fieldsOf_size fs vs h1
theorem fieldsOf_size : ∀ (fs : GTys) (vs : Vals), fieldsOf GTy.gsize fs = some vs → vs.size = fs.payload
  | .nil, vs, h => by
    simp only [fieldsOf, Option.some.injEq] at h
    subst h
    rfl
  | .cons t ts, vs, h => by
    simp only [fieldsOf, Option.bind_eq_bind, Option.bind_eq_some_iff] at h
    obtain ⟨v, h1, vs', h2, h3⟩ := h
    simp only [Option.some.injEq] at h3
    subst h3
    simp only [Vals.size, GTys.payload, valueOf_size t v h1, fieldsOf_size ts vs' h2]
end

mutual
theorem valueOf_isSome : ∀ (t : GTy), t.ok → ((valueOf GTy.gsize t).isSome ↔ t.noArray)
  | .int w, h => by
    simp only [GTy.ok] at h
    rcases h with rfl | rfl | rfl | rfl <;> simp [valueOf, GTy.noArray]
  | .float32, _ | .float64, _ | .complex64, _ | .complex128, _ | .slice, _ | .string, _
  | .iface, _ | .ptr, _ => by simp [valueOf, GTy.noArray]
  | .array n t, _ => by
    simp only [valueOf, GTy.noArray]
    split <;> simp_all
  | .struct fs, h => by
    simp only [valueOf, GTy.noArray]
    split
    · simp_all
    · simp only [GTy.ok] at h
      simp only [Option.isSome_map, fieldsOf_isSome fs h]
      simp_all
theorem fieldsOf_isSome : ∀ (fs : GTys), fs.ok → ((fieldsOf GTy.gsize fs).isSome ↔ fs.noArray)
  | .nil, _ => by simp [fieldsOf, GTys.noArray]
  | .cons t ts, h => by
    simp only [GTys.ok] at h
    simp only [fieldsOf, GTys.noArray, ← valueOf_isSome t h.1, ← fieldsOf_isSome ts h.2]
    cases valueOf GTy.gsize t <;> cases fieldsOf GTy.gsize ts <;> simp
end

mutual
theorem valueOf_align_pos : ∀ (t : GTy) (v : Val), valueOf GTy.gsize t = some v → v.align ≠ 0
  | .int w, v, h => by
    unfold valueOf at h
    split at h <;> simp at * <;> subst_vars <;> simp [Val.align]
  | .float32, v, h | .float64, v, h | .complex64, v, h | .complex128, v, h | .slice, v, h
  | .string, v, h | .iface, v, h | .ptr, v, h => by
    simp only [valueOf, Option.some.injEq] at h
    subst h
    simp [Val.align, Vals.align, vals]
  | .array n t, v, h => by
    simp only [valueOf] at h
    split at h
    · simp only [Option.some.injEq] at h; subst h; simp [Val.align]
    · simp at h
  | .struct fs, v, h => by
    simp only [valueOf] at h
    split at h
    · simp only [Option.some.injEq] at h; subst h; simp [Val.align]
    · rename_i hz
      simp only [Option.map_eq_some_iff] at h
      obtain ⟨vs, h1, rfl⟩ := h
      simp only [Val.align]
      refine fieldsOf_align_pos fs vs h1 ?_
      rintro rfl
      simp [GTy.gsize, GTys.extent, GTys.galign, roundUp] at hz
theorem fieldsOf_align_pos : ∀ (fs : GTys) (vs : Vals), fieldsOf GTy.gsize fs = some vs →
    fs ≠ .nil → vs.align ≠ 0
  | .nil, _, _, h => absurd rfl h
  | .cons t ts, vs, h, _ => by
    simp only [fieldsOf, Option.bind_eq_bind, Option.bind_eq_some_iff] at h
    obtain ⟨v, h1, vs', h2, h3⟩ := h
    simp only [Option.some.injEq] at h3
    subst h3
    have := valueOf_align_pos t v h1
    simp only [Vals.align]
    omega
end

end Verif.Abi
