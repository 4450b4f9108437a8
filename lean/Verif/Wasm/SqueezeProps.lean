import Verif.Wasm.SqueezeModel
/-!
# C37, C88: registers of wasm signatures
-/
namespace Verif.Wasm

/-- Specification: values of these sizes have places of their own. Every value has a mapping; the
places lie inside of their bank (`bank` bytes of registers, `spill` bytes of memory); two values of the
same bank share no byte. -/
structure Laid (sizes : List Nat) (ms : List Mapping) (bank spill : Int) : Prop where
  count : ms.length = sizes.length
  inside : ∀ (i : Nat) (n : Nat) (m : Mapping), sizes[i]? = some n → ms[i]? = some m →
    0 ≤ m.offset ∧ m.offset + n ≤ if m.spills then spill else bank
  apart : ∀ (i j : Nat) (n n' : Nat) (m m' : Mapping), i ≠ j →
    sizes[i]? = some n → ms[i]? = some m → sizes[j]? = some n' → ms[j]? = some m' →
    m.spills = m'.spills → m.offset + n ≤ m'.offset ∨ m'.offset + n' ≤ m.offset

/-- Specification: the bytes of the values that are spilled. -/
def spilled : List Nat → List Mapping → Nat
  | n :: ns, m :: ms => (if m.spills then n else 0) + spilled ns ms
  | _, _ => 0

theorem place_filter (bank : Int) (sizes : List Nat) (space off : Int) :
    place bank sizes space off = place bank (sizes.filter (· ≠ 0)) space off := by
  induction sizes generalizing space off with
  | nil => rfl
  | cons n ns ih =>
    by_cases h : n = 0
    · rw [place, if_pos h, ih]; simp [h]
    · have : (n :: ns).filter (· ≠ 0) = n :: ns.filter (· ≠ 0) := by simp [h]
      rw [this, place, place, if_neg h, if_neg h, ih, ih]

theorem place_count (bank : Int) (sizes : List Nat) (h : ∀ n ∈ sizes, n ≠ 0) (space off : Int) :
    (place bank sizes space off).1.length = sizes.length := by
  induction sizes generalizing space off with
  | nil => rfl
  | cons n ns ih =>
    have ih := ih (fun m hm => h m (List.mem_cons_of_mem _ hm))
    rw [place, if_neg (h n (List.mem_cons_self ..))]
    split <;> simp [ih]

theorem place_spilled (bank : Int) (sizes : List Nat) (h : ∀ n ∈ sizes, n ≠ 0) (space off : Int) :
    (place bank sizes space off).2 = off + spilled sizes (place bank sizes space off).1 := by
  induction sizes generalizing space off with
  | nil => simp [place, spilled]
  | cons n ns ih =>
    have ih := ih (fun m hm => h m (List.mem_cons_of_mem _ hm))
    rw [place, if_neg (h n (List.mem_cons_self ..))]
    split
    · simp only [spilled, if_true]; rw [ih]; omega
    · simp only [spilled, Bool.false_eq_true, if_false]; rw [ih]; omega

theorem place_bounds (bank : Int) (sizes : List Nat) (h : ∀ n ∈ sizes, n ≠ 0) (space off : Int)
    (i n : Nat) (m : Mapping) (hn : sizes[i]? = some n)
    (hm : (place bank sizes space off).1[i]? = some m) :
    if m.spills then off ≤ m.offset ∧ m.offset + n ≤ (place bank sizes space off).2
    else bank - space ≤ m.offset ∧ m.offset + n ≤ bank := by
  induction sizes generalizing space off i with
  | nil => simp at hn
  | cons k ks ih =>
    have hks := fun m hm => h m (List.mem_cons_of_mem _ hm)
    have ih := ih hks
    have hk := h k (List.mem_cons_self ..)
    rw [place, if_neg hk] at hm ⊢
    by_cases hs : (k : Int) > space
    · rw [if_pos hs] at hm ⊢
      dsimp only at hm ⊢
      cases i with
      | zero =>
        rw [List.getElem?_cons_zero, Option.some.injEq] at hn hm
        subst hn; subst hm
        have := place_spilled bank ks hks space (off + k)
        simp only [if_true]; omega
      | succ i =>
        rw [List.getElem?_cons_succ] at hn hm
        have := ih space (off + k) i hn hm
        split at this
        · rename_i e; rw [if_pos e]; omega
        · rename_i e; rw [if_neg e]; exact this
    · rw [if_neg hs] at hm ⊢
      dsimp only at hm ⊢
      cases i with
      | zero =>
        rw [List.getElem?_cons_zero, Option.some.injEq] at hn hm
        subst hn; subst hm
        simp only [Bool.false_eq_true, if_false]; omega
      | succ i =>
        rw [List.getElem?_cons_succ] at hn hm
        have := ih (space - k) off i hn hm
        split at this
        · rename_i e; rw [if_pos e]; exact this
        · rename_i e; rw [if_neg e]; omega

theorem place_ordered (bank : Int) (sizes : List Nat) (h : ∀ n ∈ sizes, n ≠ 0) (space off : Int)
    (i j n n' : Nat) (m m' : Mapping) (hij : i < j)
    (hn : sizes[i]? = some n) (hm : (place bank sizes space off).1[i]? = some m)
    (hn' : sizes[j]? = some n') (hm' : (place bank sizes space off).1[j]? = some m')
    (hs : m.spills = m'.spills) : m.offset + n ≤ m'.offset := by
  induction sizes generalizing space off i j with
  | nil => simp at hn
  | cons k ks ih =>
    have hks := fun m hm => h m (List.mem_cons_of_mem _ hm)
    have ih := ih hks
    have hk := h k (List.mem_cons_self ..)
    obtain ⟨j, rfl⟩ : ∃ j', j = j' + 1 := ⟨j - 1, by omega⟩
    rw [place, if_neg hk] at hm hm'
    by_cases hsp : (k : Int) > space
    · rw [if_pos hsp] at hm hm'
      dsimp only at hm hm'
      rw [List.getElem?_cons_succ] at hn' hm'
      cases i with
      | zero =>
        rw [List.getElem?_cons_zero, Option.some.injEq] at hn hm
        subst hn; subst hm
        have := place_bounds bank ks hks space (off + k) j n' m' hn' hm'
        dsimp only at hs
        rw [if_pos hs.symm] at this
        exact this.1
      | succ i =>
        rw [List.getElem?_cons_succ] at hn hm
        exact ih space (off + k) i j (by omega) hn hm hn' hm'
    · rw [if_neg hsp] at hm hm'
      dsimp only at hm hm'
      rw [List.getElem?_cons_succ] at hn' hm'
      cases i with
      | zero =>
        rw [List.getElem?_cons_zero, Option.some.injEq] at hn hm
        subst hn; subst hm
        have := place_bounds bank ks hks (space - k) off j n' m' hn' hm'
        dsimp only at hs
        rw [if_neg (by rw [← hs]; decide)] at this
        dsimp only
        omega
      | succ i =>
        rw [List.getElem?_cons_succ] at hn hm
        exact ih (space - k) off i j (by omega) hn hm hn' hm'

theorem place_laid (bank : Int) (sizes : List Nat) :
    Laid (sizes.filter (· ≠ 0)) (place bank sizes bank 0).1 bank (place bank sizes bank 0).2 := by
  have h : ∀ n ∈ sizes.filter (· ≠ 0), n ≠ 0 := by simp
  rw [place_filter]
  refine ⟨place_count bank _ h _ _, ?_, ?_⟩
  · intro i n m hn hm
    have := place_bounds bank _ h bank 0 i n m hn hm
    split at this
    · rename_i e; rw [if_pos e]; exact ⟨this.1, this.2⟩
    · rename_i e; rw [if_neg e]; exact ⟨by omega, this.2⟩
  · intro i j n n' m m' hij hn hm hn' hm' hs
    rcases Nat.lt_or_gt_of_ne hij with hij | hij
    · exact Or.inl (place_ordered bank _ h bank 0 i j n n' m m' hij hn hm hn' hm' hs)
    · exact Or.inr (place_ordered bank _ h bank 0 j i n' n m' m hij hn' hm' hn hm hs.symm)

theorem laid_nil (bank spill : Int) : Laid [] [] bank spill :=
  ⟨rfl, by simp, by simp⟩

theorem total_eq (ins : List Nat) : total ins = total (ins.filter (· ≠ 0)) := by
  induction ins with
  | nil => rfl
  | cons n ns ih =>
    by_cases h : n = 0
    · rw [total, if_pos h, ih]; simp [h]
    · have : (n :: ns).filter (· ≠ 0) = n :: ns.filter (· ≠ 0) := by simp [h]
      rw [this, total, total, if_neg h, if_neg h, ih]

/-- If everything fits nothing is spilled. -/
theorem place_fits (bank : Int) (sizes : List Nat) (space off : Int) (h : (total sizes : Int) ≤ space) :
    (place bank sizes space off).2 = off := by
  induction sizes generalizing space with
  | nil => rfl
  | cons n ns ih =>
    rw [place]
    rw [total] at h
    split
    · rename_i e; rw [if_pos e] at h; exact ih space h
    · rename_i e
      rw [if_neg e] at h
      rw [if_neg (by omega)]
      exact ih (space - n) (by omega)

/-- C37: results have places of their own in the one result register and in the memory for results,
and that memory has exactly the size of what is spilled. -/
theorem squeeze_results (ins outs : List Nat) (max : Int) :
    Laid (outs.filter (· ≠ 0)) (squeeze ins outs max).results 8 (squeeze ins outs max).resultsOffset ∧
    (squeeze ins outs max).resultsOffset =
      spilled (outs.filter (· ≠ 0)) (squeeze ins outs max).results := by
  have e : (squeeze ins outs max).results = (place 8 outs 8 0).1 ∧
      (squeeze ins outs max).resultsOffset = (place 8 outs 8 0).2 := by
    simp only [squeeze]
    split
    · exact ⟨rfl, rfl⟩
    · split
      · exact ⟨rfl, rfl⟩
      · split <;> exact ⟨rfl, rfl⟩
  rw [e.1, e.2]
  refine ⟨place_laid 8 outs, ?_⟩
  have := place_spilled 8 (outs.filter (· ≠ 0)) (by simp) 8 0
  rw [← place_filter] at this
  omega

theorem any_spills_of_pos (sizes : List Nat) (ms : List Mapping) (h : spilled sizes ms ≠ 0) :
    ms.any (·.spills) = true := by
  induction sizes generalizing ms with
  | nil => simp [spilled] at h
  | cons n ns ih =>
    cases ms with
    | nil => simp [spilled] at h
    | cons m ms =>
      cases hm : m.spills
      · rw [spilled, hm] at h
        simp only [Bool.false_eq_true, if_false, Nat.zero_add] at h
        simp [ih ms h]
      · simp [hm]

/-- The number of registers that hold pointers. -/
def pointers (s : Squeezed) : Int :=
  (if s.resultsOffset > 0 then 1 else 0) + (if s.registerOffset > 0 then 1 else 0)

/-- C37: if the arguments are assigned at all, they have places of their own in the registers that are
left when one register has been set apart for each pointer to a spilled bank, and the memory for
arguments has exactly the size of what is spilled. -/
theorem squeeze_args (ins outs : List Nat) (max : Int) :
    ((squeeze ins outs max).args = [] ∧ (squeeze ins outs max).registerOffset = 0) ∨
    Laid (ins.filter (· ≠ 0)) (squeeze ins outs max).args
      (8 * (max - pointers (squeeze ins outs max))) (squeeze ins outs max).registerOffset ∧
    (squeeze ins outs max).registerOffset =
      spilled (ins.filter (· ≠ 0)) (squeeze ins outs max).args := by
  have hres := squeeze_results ins outs max
  revert hres
  generalize hg : squeeze ins outs max = s
  intro hres
  simp only [squeeze] at hg
  split at hg
  · subst hg; exact Or.inl ⟨rfl, rfl⟩
  split at hg
  · subst hg; exact Or.inl ⟨rfl, rfl⟩
  split at hg
  · subst hg; exact Or.inl ⟨rfl, rfl⟩
  right
  rename_i h₀ h₁ h₂
  revert hg h₂ h₁
  generalize hm₁ : afterResults max (place 8 outs 8 0).1 = max₁
  generalize hm₂ : afterArgs max₁ ins = max₂
  intro h₁ h₂ hg
  have hl := place_laid (max₂ * 8) ins
  have hsp := place_spilled (max₂ * 8) (ins.filter (· ≠ 0)) (by simp) (max₂ * 8) 0
  rw [← place_filter] at hsp
  have e₁ : s.args = (place (max₂ * 8) ins (max₂ * 8) 0).1 := by rw [← hg]
  have e₂ : s.registerOffset = (place (max₂ * 8) ins (max₂ * 8) 0).2 := by rw [← hg]
  have e₃ : s.results = (place 8 outs 8 0).1 := by rw [← hg]
  refine ⟨?_, by rw [e₁, e₂]; omega⟩
  -- the registers left
  have hbank : max₂ ≤ max - pointers s := by
    have h₁' : max₁ ≤ max - (if s.resultsOffset > 0 then 1 else 0) := by
      rw [← hm₁, afterResults]
      by_cases ha : (place 8 outs 8 0).1.any (·.spills) = true
      · rw [if_pos ha]; split <;> omega
      · rw [if_neg ha, if_neg]
        · omega
        · intro hp
          exact ha (by rw [← e₃]; exact any_spills_of_pos _ _ (by rw [hres.2] at hp; intro hz; rw [hz] at hp; omega))
    have h₂' : max₂ ≤ max₁ - (if s.registerOffset > 0 then 1 else 0) := by
      rw [← hm₂, afterArgs]
      by_cases ht : (total ins : Int) > max₁ * 8
      · rw [if_pos ht]; split <;> omega
      · rw [if_neg ht]
        have : max₂ = max₁ := by rw [← hm₂, afterArgs, if_neg ht]
        rw [if_neg]
        · omega
        · rw [e₂, place_fits _ _ _ _ (by rw [this]; omega)]; omega
    rw [pointers]; omega
  rw [e₁, e₂]
  refine ⟨hl.count, ?_, hl.apart⟩
  intro i n m hn hm
  have := hl.inside i n m hn hm
  refine ⟨this.1, ?_⟩
  have h := this.2
  split at h
  · rename_i e; rw [if_pos e]; exact h
  · rename_i e; rw [if_neg e]; omega

example : squeeze [8, 0, 4, 16] [8, 24] 4 =
    ⟨[⟨0, false⟩, ⟨8, false⟩, ⟨0, true⟩], [⟨0, false⟩, ⟨0, true⟩], 16, 24⟩ := by decide +kernel

/-- C88, partial: three registers are enough for every argument to be assigned a place. -/
theorem squeeze_assigned_partial (ins outs : List Nat) (max : Int) (h : 3 ≤ max) :
    (squeeze ins outs max).args.length = (ins.filter (· ≠ 0)).length := by
  have h₁ : 2 ≤ afterResults max (place 8 outs 8 0).1 := by rw [afterResults]; split <;> omega
  have h₂ : 1 ≤ afterArgs (afterResults max (place 8 outs 8 0).1) ins := by
    rw [afterArgs]; split <;> omega
  simp only [squeeze]
  rw [if_neg (by omega), if_neg (by omega), if_neg (by omega)]
  exact (place_laid _ ins).count

example : (squeeze [4, 100, 0] [] 3).args.length = 2 := squeeze_assigned_partial _ _ 3 (by decide)

/-- C88 fails with fewer registers: one argument of sixteen bytes and one register, and the argument
is assigned no place and no memory. -/
theorem squeeze_assigned_fails :
    squeeze [16] [] 1 = ⟨[], [], 0, 0⟩ ∧ squeeze [8] [16] 1 = ⟨[], [⟨0, true⟩], 0, 16⟩ := by
  decide +kernel

/-! ### Values written through the mappings are read back -/

theorem copyAt_spec (dst raw : List UInt8) (off : Nat) (h : off + raw.length ≤ dst.length) :
    ∃ d, copyAt dst off raw = some d ∧ d.length = dst.length ∧
      ∀ k : Nat, d[k]? = if off ≤ k ∧ k < off + raw.length then raw[k - off]? else dst[k]? := by
  refine ⟨_, by rw [copyAt, if_neg (by omega)], ?_, ?_⟩
  · simp only [Int.toNat_natCast, List.length_append, List.length_take, List.length_drop]
    omega
  · intro k
    simp only [Int.toNat_natCast]
    rw [show min raw.length (dst.length - off) = raw.length by omega, List.take_length,
      List.append_assoc]
    by_cases h₁ : k < off
    · rw [List.getElem?_append_left (by rw [List.length_take]; omega),
        List.getElem?_take_of_lt h₁, if_neg (by omega)]
    · rw [List.getElem?_append_right (by rw [List.length_take]; omega), List.length_take,
        show min off dst.length = off by omega]
      by_cases h₂ : k < off + raw.length
      · rw [List.getElem?_append_left (by omega), if_pos (by omega)]
      · rw [List.getElem?_append_right (by omega), if_neg (by omega), List.getElem?_drop]
        congr 1; omega

/-- The byte at `k` of the memory or of the registers. -/
def bankOf (stack spill : List UInt8) (s : Bool) : List UInt8 := if s then spill else stack

theorem write_spec (m : Mapping) (stack spill raw : List UInt8) (h₀ : 0 ≤ m.offset)
    (h : m.offset + raw.length ≤ (bankOf stack spill m.spills).length) :
    ∃ st sp, m.write stack spill raw = some (st, sp) ∧ st.length = stack.length ∧
      sp.length = spill.length ∧ ∀ (b : Bool) (k : Nat), (bankOf st sp b)[k]? =
        if b = m.spills ∧ m.offset ≤ k ∧ k < m.offset + raw.length
        then raw[k - m.offset.toNat]? else (bankOf stack spill b)[k]? := by
  obtain ⟨off, s⟩ := m
  dsimp only at h₀ h ⊢
  obtain ⟨o, rfl⟩ := Int.eq_ofNat_of_zero_le h₀
  cases s with
  | true =>
    simp only [bankOf, if_true] at h
    obtain ⟨d, hd, hl, hk⟩ := copyAt_spec spill raw o (by omega)
    refine ⟨stack, d, ?_, rfl, hl, ?_⟩
    · simp only [Mapping.write, if_true]
      exact (congrArg _ hd).trans rfl
    · intro b k
      cases b with
      | false => simp [bankOf]
      | true =>
        simp only [bankOf, if_true, true_and, Int.toNat_natCast]
        rw [hk]
        by_cases c : o ≤ k ∧ k < o + raw.length
        · rw [if_pos c, if_pos ⟨by omega, by omega⟩]
        · rw [if_neg c, if_neg (fun c' => c ⟨by omega, by omega⟩)]
  | false =>
    simp only [bankOf, Bool.false_eq_true, if_false] at h
    obtain ⟨d, hd, hl, hk⟩ := copyAt_spec stack raw o (by omega)
    refine ⟨d, spill, ?_, hl, rfl, ?_⟩
    · simp only [Mapping.write, Bool.false_eq_true, if_false]
      exact (congrArg _ hd).trans rfl
    · intro b k
      cases b with
      | true => simp [bankOf]
      | false =>
        simp only [bankOf, Bool.false_eq_true, if_false, true_and, Int.toNat_natCast]
        rw [hk]
        by_cases c : o ≤ k ∧ k < o + raw.length
        · rw [if_pos c, if_pos ⟨by omega, by omega⟩]
        · rw [if_neg c, if_neg (fun c' => c ⟨by omega, by omega⟩)]

theorem Laid.tail {n : Nat} {ns : List Nat} {m : Mapping} {ms : List Mapping} {bank spill : Int}
    (h : Laid (n :: ns) (m :: ms) bank spill) : Laid ns ms bank spill := by
  refine ⟨by simpa using h.count, ?_, ?_⟩
  · intro i n m hn hm
    exact h.inside (i + 1) n m (by simpa using hn) (by simpa using hm)
  · intro i j n n' m m' hij hn hm hn' hm'
    exact h.apart (i + 1) (j + 1) n n' m m' (by omega) (by simpa using hn) (by simpa using hm)
      (by simpa using hn') (by simpa using hm')

theorem writeAll_spec (vals : List (List UInt8)) (ms : List Mapping) (bank spill : Int)
    (h : Laid (vals.map List.length) ms bank spill) (st sp : List UInt8)
    (hst : bank ≤ st.length) (hsp : spill ≤ sp.length) :
    ∃ st' sp', writeAll ms vals st sp = some (st', sp') ∧ st'.length = st.length ∧
      sp'.length = sp.length ∧
      (∀ (b : Bool) (k : Nat), (∀ (i : Nat) (v : List UInt8) (m : Mapping), vals[i]? = some v →
        ms[i]? = some m → m.spills = b → (k : Int) < m.offset ∨ m.offset + v.length ≤ k) →
        (bankOf st' sp' b)[k]? = (bankOf st sp b)[k]?) ∧
      (∀ (i : Nat) (v : List UInt8) (m : Mapping), vals[i]? = some v → ms[i]? = some m →
        ∀ k : Nat, k < v.length → (bankOf st' sp' m.spills)[m.offset.toNat + k]? = v[k]?) := by
  induction vals generalizing ms st sp with
  | nil =>
    refine ⟨st, sp, ?_, rfl, rfl, fun _ _ _ => rfl, by simp⟩
    cases ms <;> rfl
  | cons v vs ih =>
    cases ms with
    | nil => exact absurd h.count (by simp)
    | cons m ms =>
      have hin := h.inside 0 v.length m rfl rfl
      obtain ⟨st₁, sp₁, e₁, hl₁, hl₂, hb⟩ := write_spec m st sp v hin.1 (by
        have := hin.2
        cases hs : m.spills
        · rw [hs] at this; simp only [bankOf, Bool.false_eq_true, if_false] at this ⊢; omega
        · rw [hs] at this; simp only [bankOf, if_true] at this ⊢; omega)
      obtain ⟨st₂, sp₂, e₂, hl₃, hl₄, hout, hval⟩ := ih ms h.tail st₁ sp₁ (by omega) (by omega)
      refine ⟨st₂, sp₂, by rw [writeAll, e₁]; exact e₂, by omega, by omega, ?_, ?_⟩
      · intro b k hk
        rw [hout b k fun i v m hv hm => hk (i + 1) v m (by simpa using hv) (by simpa using hm), hb]
        rw [if_neg]
        rintro ⟨c₁, c₂, c₃⟩
        have := hk 0 v m rfl rfl c₁.symm
        omega
      · intro i w mm hv hm k hk
        cases i with
        | succ i => exact hval i w mm (by simpa using hv) (by simpa using hm) k hk
        | zero =>
          obtain rfl : v = w := by simpa using hv
          obtain rfl : m = mm := by simpa using hm
          have h₀ : 0 ≤ m.offset := hin.1
          rw [hout m.spills (m.offset.toNat + k), hb, if_pos ⟨rfl, by omega, by omega⟩]
          · congr 1; omega
          · intro i w' m' hv' hm' hs
            have := h.apart 0 (i + 1) v.length w'.length m m' (by omega) rfl rfl
              (by simp [hv']) (by simp [hm']) hs.symm
            omega

theorem read_of_bytes (m : Mapping) (stack spill raw v : List UInt8) (h₀ : 0 ≤ m.offset)
    (hl : v.length = raw.length)
    (hb : m.offset + v.length ≤ (bankOf stack spill m.spills).length)
    (h : ∀ k : Nat, k < v.length → (bankOf stack spill m.spills)[m.offset.toNat + k]? = v[k]?) :
    m.read stack spill raw = some v := by
  rw [Mapping.read]
  rw [show (if m.spills then spill else stack) = bankOf stack spill m.spills from rfl]
  dsimp only
  rw [if_neg (by omega)]
  congr 1
  have hd : ((bankOf stack spill m.spills).drop m.offset.toNat).length ≥ raw.length := by
    rw [List.length_drop]; omega
  rw [List.drop_of_length_le hd, List.append_nil]
  apply List.ext_getElem?
  intro k
  by_cases hk : k < v.length
  · rw [List.getElem?_take_of_lt (by omega), List.getElem?_drop, h k hk]
  · rw [List.getElem?_eq_none (by rw [List.length_take]; omega), List.getElem?_eq_none (by omega)]

/-- C88: results written through their mappings, into one register and memory of the returned size,
are all read back, whatever the variables they are read into held. -/
theorem results_read_back (ins : List Nat) (vals : List (List UInt8)) (h : ∀ v ∈ vals, v ≠ [])
    (max : Int) (word spill : List UInt8) (hw : word.length = 8)
    (hs : (squeeze ins (vals.map List.length) max).resultsOffset ≤ spill.length) :
    ∃ word' spill', writeAll (squeeze ins (vals.map List.length) max).results vals word spill =
        some (word', spill') ∧ word'.length = 8 ∧
      ∀ (i : Nat) (v raw : List UInt8) (m : Mapping), vals[i]? = some v →
        (squeeze ins (vals.map List.length) max).results[i]? = some m → raw.length = v.length →
        m.read word' spill' raw = some v := by
  have hl := (squeeze_results ins (vals.map List.length) max).1
  have hf : (vals.map List.length).filter (· ≠ 0) = vals.map List.length := by
    rw [List.filter_eq_self]
    intro n hn
    obtain ⟨v, hv, rfl⟩ := List.mem_map.1 hn
    simpa using h v hv
  rw [hf] at hl
  obtain ⟨st, sp, e, l₁, l₂, -, hv⟩ := writeAll_spec vals _ 8 _ hl word spill (by omega) hs
  refine ⟨st, sp, e, by omega, ?_⟩
  intro i v raw m hvi hmi hr
  have hin := hl.inside i v.length m (by simp [hvi]) hmi
  refine read_of_bytes m st sp raw v hin.1 hr.symm ?_ (hv i v m hvi hmi)
  have := hin.2
  cases hs' : m.spills
  · rw [hs'] at this; simp only [bankOf, Bool.false_eq_true, if_false] at this ⊢; omega
  · rw [hs'] at this; simp only [bankOf, if_true] at this ⊢; omega

example : ∃ w s, writeAll (squeeze [] [2, 9] 4).results [[1, 2], [1, 2, 3, 4, 5, 6, 7, 8, 9]]
    [0, 0, 0, 0, 0, 0, 0, 0] [0, 0, 0, 0, 0, 0, 0, 0, 0] = some (w, s) ∧ w.length = 8 :=
  let ⟨w, s, e, l, _⟩ := results_read_back [] [[1, 2], [1, 2, 3, 4, 5, 6, 7, 8, 9]] (by simp) 4
    [0, 0, 0, 0, 0, 0, 0, 0] [0, 0, 0, 0, 0, 0, 0, 0, 0] rfl (by decide +kernel)
  ⟨w, s, e, l⟩

/-- C88: arguments that are written through their mappings arrive at their places, and the registers
of the pointers are not touched. -/
theorem args_written (vals : List (List UInt8)) (h : ∀ v ∈ vals, v ≠ []) (outs : List Nat)
    (max : Int) (h3 : 3 ≤ max) (regs spill : List UInt8) (hr : (regs.length : Int) = 8 * max)
    (hs : (squeeze (vals.map List.length) outs max).registerOffset ≤ spill.length) :
    ∃ regs' spill', writeAll (squeeze (vals.map List.length) outs max).args vals regs spill =
        some (regs', spill') ∧
      (∀ (i : Nat) (v : List UInt8) (m : Mapping), vals[i]? = some v →
        (squeeze (vals.map List.length) outs max).args[i]? = some m →
        ∀ k : Nat, k < v.length → (bankOf regs' spill' m.spills)[m.offset.toNat + k]? = v[k]?) ∧
      (∀ k : Nat, 8 * (max - pointers (squeeze (vals.map List.length) outs max)) ≤ k →
        regs'[k]? = regs[k]?) := by
  have hf : (vals.map List.length).filter (· ≠ 0) = vals.map List.length := by
    rw [List.filter_eq_self]
    intro n hn
    obtain ⟨v, hv, rfl⟩ := List.mem_map.1 hn
    simpa using h v hv
  have hl : Laid (vals.map List.length) (squeeze (vals.map List.length) outs max).args
      (8 * (max - pointers (squeeze (vals.map List.length) outs max)))
      (squeeze (vals.map List.length) outs max).registerOffset := by
    rcases squeeze_args (vals.map List.length) outs max with ⟨e, -⟩ | ⟨hl, -⟩
    · have := squeeze_assigned_partial (vals.map List.length) outs max h3
      rw [hf, e] at this
      have hv : vals = [] := by simpa using this.symm
      rw [e, hv]
      exact laid_nil _ _
    · rwa [hf] at hl
  have hp : 0 ≤ pointers (squeeze (vals.map List.length) outs max) := by
    rw [pointers]; split <;> split <;> omega
  obtain ⟨st, sp, e, l₁, l₂, hout, hv⟩ := writeAll_spec vals _ _ _ hl regs spill (by omega) hs
  refine ⟨st, sp, e, hv, ?_⟩
  intro k hk
  refine hout false k ?_
  intro i v m hvi hmi hm
  have := (hl.inside i v.length m (by simp [hvi]) hmi).2
  rw [hm] at this
  simp only [Bool.false_eq_true, if_false] at this
  omega

/-! ### The other helpers -/

/-- C88: a mask has exactly the bits of that many bytes; other sizes panic. -/
theorem mask_spec (size : Int) (n : Nat) :
    sizeToMask size = some n ↔ 1 ≤ size ∧ size ≤ 8 ∧ n = 2 ^ (8 * size.toNat) - 1 := by
  constructor
  · intro h
    simp only [sizeToMask] at h
    repeat' (split at h; · rename_i e; subst e; cases h; decide)
    exact nomatch h
  · rintro ⟨h₁, h₂, rfl⟩
    have : size = 1 ∨ size = 2 ∨ size = 3 ∨ size = 4 ∨ size = 5 ∨ size = 6 ∨ size = 7 ∨ size = 8 := by
      omega
    rcases this with rfl | rfl | rfl | rfl | rfl | rfl | rfl | rfl <;> decide +kernel

example : sizeToMask 3 = some 0xFFFFFF := (mask_spec 3 _).2 (by decide)

/-- C88: the jump of a function without results is the least of 0, 1, 2, 4 and 8 words that hold its
arguments; there is none if they need more or if there are results. -/
theorem jump_spec (ins : List Nat) (outs k : Nat) :
    jumpType ins outs = k ↔ outs = 0 ∧ k ∈ [0, 1, 2, 4, 8] ∧ ins.sum ≤ 8 * k ∧
      ∀ j ∈ [0, 1, 2, 4, 8], ins.sum ≤ 8 * j → k ≤ j := by
  rw [jumpType, ← List.sum_eq_foldl_nat]
  generalize ins.sum = n
  simp only [List.mem_cons, List.not_mem_nil, or_false, forall_eq_or_imp, forall_eq]
  repeat' split
  all_goals omega

end Verif.Wasm
