import Verif.Xyz.ExternModel
/-!
# Texts of unions, and unions that others add cases to (C233)
-/
namespace Verif.Xyz.Ext

/-- The `i`-th case that a type declares. -/
def UDecl.caseAt (d : UDecl) (i : Nat) (c : UCase) : Prop :=
  match d with
  | .plain cs => cs[i]? = some c
  | .extern => False
  | .extend _ cs => cs[i]? = some c

/-- The `i`-th case of the declaration `e` is a case of the type `k`: its own, or one with a value that an extension adds. -/
def Belongs (decls : Nat → UDecl) (k e i : Nat) (c : UCase) : Prop :=
  (decls e).caseAt i c ∧ (e = k ∨ ((∃ cs, decls e = .extend k cs) ∧ c.void = false))

/-- Only extern types are extended. -/
def OnlyExterns (decls : Nat → UDecl) : Prop := ∀ e p cs, decls e = .extend p cs → decls p = .extern

/-- The cases of a type have different texts; one without a text counts as having the empty one. -/
def TextsDiffer (decls : Nat → UDecl) (k : Nat) : Prop :=
  ∀ e i c e' i' c', Belongs decls k e i c → Belongs decls k e' i' c' →
    c.field.txt.getD [] = c'.field.txt.getD [] → e = e' ∧ i = i'

/-- The type of the values of a case: those without a value are of the type that declares them. -/
def UDecl.valueType (e : Nat) (d : UDecl) (c : UCase) : Nat :=
  match d, c.void with
  | .extend p _, false => p
  | _, _ => e

/-- The accessor is the `i`-th that the program was handed for the type `e`, at some moment of a history. -/
def Handed (decls : Nat → UDecl) (str : Bool) (h : List UOp) (e i : Nat) (a : Acc) : Prop :=
  ∃ r' l, valuesOf decls str (runOps decls str Registry.init h) e = some (r', l) ∧ l[i]? = some a

/-! ## The registry -/

/-- The `i`-th accessor of a declaration that has cases. -/
def OwnAt (decls : Nat → UDecl) (r : Registry) (k i : Nat) (a : Acc) : Prop :=
  (decls k).fields ≠ none ∧ ∃ l, r.cache k = some l ∧ l[i]? = some a

/-- What holds of every registry. -/
structure RegOk (decls : Nat → UDecl) (r : Registry) : Prop where
  own : ∀ k l cs, r.cache k = some l → (decls k).fields = some cs → l.map Acc.case = cs
  ext : ∀ k l a, r.cache k = some l → decls k = .extern → a ∈ l →
    ∃ e i cs, decls e = .extend k cs ∧ OwnAt decls r e i a ∧ a.case.void = false
  fresh : ∀ k i a, OwnAt decls r k i a → a.ptr < r.next
  inj : ∀ k i a k' i' a', OwnAt decls r k i a → OwnAt decls r k' i' a' → a.ptr = a'.ptr → k = k' ∧ i = i'

/-- The registry has only grown, and only by what was added to extern types. -/
def Grown (decls : Nat → UDecl) (r r' : Registry) : Prop :=
  ∀ k l, r.cache k = some l → ∃ s, r'.cache k = some (l ++ s) ∧ ((decls k).fields ≠ none → s = [])

theorem Grown.refl (decls : Nat → UDecl) (r : Registry) : Grown decls r r :=
  fun k l h => ⟨[], by simpa using h, fun _ => rfl⟩

theorem Grown.trans {decls : Nat → UDecl} {r s t : Registry} (h : Grown decls r s) (g : Grown decls s t) :
    Grown decls r t := by
  intro k l hk
  obtain ⟨x, hx, ex⟩ := h k l hk
  obtain ⟨y, hy, ey⟩ := g k _ hx
  exact ⟨x ++ y, by rw [hy, List.append_assoc], fun hf => by rw [ex hf, ey hf]; rfl⟩

theorem Grown.own {decls : Nat → UDecl} {r s : Registry} (h : Grown decls r s) {k i : Nat} {a : Acc}
    (ho : OwnAt decls r k i a) : OwnAt decls s k i a := by
  obtain ⟨hf, l, hl, hi⟩ := ho
  obtain ⟨x, hx, ex⟩ := h k l hl
  rw [ex hf, List.append_nil] at hx
  exact ⟨hf, l, hx, hi⟩

theorem allocate_get (n : Nat) (cs : List UCase) (i : Nat) (a : Acc) :
    (allocate n cs)[i]? = some a ↔ a.ptr = n + i ∧ cs[i]? = some a.case := by
  induction cs generalizing n i with
  | nil => simp [allocate]
  | cons c l ih =>
    cases i with
    | zero =>
      simp only [allocate, List.getElem?_cons_zero, Option.some.injEq, Nat.add_zero]
      constructor
      · intro h; subst h; exact ⟨rfl, rfl⟩
      · intro h; obtain ⟨p, q⟩ := a; simp only at h; rw [← h.1, ← h.2]
    | succ i =>
      simp only [allocate, List.getElem?_cons_succ]
      rw [ih]
      constructor
      · intro h; exact ⟨by omega, h.2⟩
      · intro h; exact ⟨by omega, h.2⟩

theorem allocate_map (n : Nat) (cs : List UCase) : (allocate n cs).map Acc.case = cs := by
  induction cs generalizing n with
  | nil => rfl
  | cons c l ih => simp [allocate, ih]

theorem RegOk.init (decls : Nat → UDecl) : RegOk decls Registry.init where
  own := fun k l cs h => (nomatch h)
  ext := fun k l a h => (nomatch h)
  fresh := fun k i a h => by obtain ⟨_, l, h, _⟩ := h; cases h
  inj := fun k i a k' i' a' h => by obtain ⟨_, l, h, _⟩ := h; cases h

theorem accessorsOf_ok {decls : Nat → UDecl} {str : Bool} {r r' : Registry} {k : Nat} {l : List Acc}
    (ok : RegOk decls r) (h : accessorsOf decls str r k = some (r', l)) :
    RegOk decls r' ∧ Grown decls r r' ∧ r'.cache k = some l := by
  unfold accessorsOf at h
  cases hc : r.cache k with
  | some l0 =>
    rw [hc] at h
    injection h with h
    injection h with h1 h2
    subst h1; subst h2
    exact ⟨ok, Grown.refl _ _, hc⟩
  | none =>
    rw [hc] at h
    dsimp only at h
    cases hf : (decls k).fields with
    | none => rw [hf] at h; cases h
    | some cs =>
      rw [hf] at h
      dsimp only at h
      split at h
      · cases h
      split at h
      · cases h
      injection h with h
      injection h with h1 h2
      have hget : ∀ j, r'.cache j = if j = k then some (allocate r.next cs) else r.cache j := by
        intro j; rw [← h1]; rfl
      have hnext : r'.next = r.next + cs.length := by rw [← h1]
      have hown : ∀ j i a, OwnAt decls r' j i a →
          OwnAt decls r j i a ∨ (j = k ∧ a.ptr = r.next + i ∧ i < cs.length) := by
        intro j i a ⟨hfj, lj, hlj, hij⟩
        rw [hget] at hlj
        by_cases hj : j = k
        · rw [if_pos hj] at hlj
          injection hlj with hlj
          rw [← hlj] at hij
          obtain ⟨g1, g2⟩ := (allocate_get _ _ _ _).mp hij
          exact Or.inr ⟨hj, g1, (List.getElem?_eq_some_iff.mp g2).1⟩
        · rw [if_neg hj] at hlj
          exact Or.inl ⟨hfj, lj, hlj, hij⟩
      have hgrown : Grown decls r r' := by
        intro j lj hlj
        have hj : j ≠ k := by intro hj; rw [hj, hc] at hlj; cases hlj
        refine ⟨[], ?_, fun _ => rfl⟩
        rw [hget, if_neg hj, hlj, List.append_nil]
      refine ⟨RegOk.mk ?_ ?_ ?_ ?_, hgrown, ?_⟩
      · intro j lj cj hlj hcj
        rw [hget] at hlj
        by_cases hj : j = k
        · rw [if_pos hj] at hlj
          injection hlj with hlj
          rw [hj, hf] at hcj
          injection hcj with hcj
          rw [← hlj, ← hcj, allocate_map]
        · rw [if_neg hj] at hlj
          exact ok.own j lj cj hlj hcj
      · intro j lj a hlj hdj ha
        have hj : j ≠ k := by
          intro hj
          rw [← hj, hdj] at hf
          cases hf
        rw [hget, if_neg hj] at hlj
        obtain ⟨e, i, ce, he, ho, hv⟩ := ok.ext j lj a hlj hdj ha
        exact ⟨e, i, ce, he, hgrown.own ho, hv⟩
      · intro j i a ho
        rcases hown j i a ho with ho | ⟨_, g1, g2⟩
        · have := ok.fresh j i a ho
          omega
        · omega
      · intro j i a j' i' a' ho ho' hp
        rcases hown j i a ho with ho | ⟨e1, e2, e3⟩ <;> rcases hown j' i' a' ho' with ho' | ⟨f1, f2, f3⟩
        · exact ok.inj j i a j' i' a' ho ho' hp
        · have := ok.fresh j i a ho
          omega
        · have := ok.fresh j' i' a' ho'
          omega
        · exact ⟨by rw [e1, f1], by omega⟩
      · rw [hget, if_pos rfl, h2]

theorem fields_variant {decls : Nat → UDecl} (we : OnlyExterns decls) (k : Nat) :
    (decls k).variant k = k ∨ (decls ((decls k).variant k) = .extern ∧ ∃ cs, decls k = .extend ((decls k).variant k) cs) := by
  cases h : decls k with
  | plain cs => exact Or.inl rfl
  | extern => exact Or.inl rfl
  | extend p cs => exact Or.inr ⟨we k p cs h, cs, rfl⟩

theorem appendAcc_ok {decls : Nat → UDecl} (we : OnlyExterns decls) {r : Registry} {k i : Nat} {a : Acc}
    (ok : RegOk decls r) (ho : OwnAt decls r k i a) (hv : a.case.void = false) :
    RegOk decls (appendAcc r ((decls k).variant k) a) ∧ Grown decls r (appendAcc r ((decls k).variant k) a) ∧
      ∃ l, (appendAcc r ((decls k).variant k) a).cache ((decls k).variant k) = some l ∧ a ∈ l := by
  rcases fields_variant we k with hk | ⟨hx, cs, he⟩
  · rw [hk]
    obtain ⟨_, l, hl, hi⟩ := ho
    have hm : a ∈ l := List.mem_of_getElem? hi
    have : appendAcc r k a = r := by
      unfold appendAcc
      rw [hl]
      exact if_pos (List.any_eq_true.mpr ⟨a, hm, by simp⟩)
    rw [this]
    exact ⟨ok, Grown.refl _ _, l, hl, hm⟩
  · generalize hp : (decls k).variant k = p at hx he ⊢
    have key : ∀ l0 : List Acc, (∀ b ∈ l0, ∃ e i ce, decls e = .extend p ce ∧ OwnAt decls r e i b ∧ b.case.void = false) →
        (∀ l1, r.cache p = some l1 → l1 = l0) →
        RegOk decls (r.put p (l0 ++ [a])) ∧ Grown decls r (r.put p (l0 ++ [a])) ∧
          ∃ l, (r.put p (l0 ++ [a])).cache p = some l ∧ a ∈ l := by
      intro l0 hl0 hc0
      have hget : ∀ j, (r.put p (l0 ++ [a])).cache j = if j = p then some (l0 ++ [a]) else r.cache j := fun j => rfl
      have hown : ∀ j i b, OwnAt decls (r.put p (l0 ++ [a])) j i b → OwnAt decls r j i b := by
        intro j i b ⟨hfj, lj, hlj, hij⟩
        have hj : j ≠ p := by
          intro hj
          rw [hj, hx] at hfj
          exact hfj rfl
        rw [hget, if_neg hj] at hlj
        exact ⟨hfj, lj, hlj, hij⟩
      have hgrown : Grown decls r (r.put p (l0 ++ [a])) := by
        intro j lj hlj
        by_cases hj : j = p
        · refine ⟨[a], ?_, ?_⟩
          · rw [hget, if_pos hj, ← hc0 lj (hj ▸ hlj)]
          · intro hf
            rw [hj, hx] at hf
            exact absurd rfl hf
        · exact ⟨[], by rw [hget, if_neg hj, hlj, List.append_nil], fun _ => rfl⟩
      refine ⟨RegOk.mk ?_ ?_ ?_ ?_, hgrown, l0 ++ [a], by rw [hget, if_pos rfl], by simp⟩
      · intro j lj cj hlj hcj
        have hj : j ≠ p := by
          intro hj
          rw [hj, hx] at hcj
          cases hcj
        rw [hget, if_neg hj] at hlj
        exact ok.own j lj cj hlj hcj
      · intro j lj b hlj hdj hb
        by_cases hj : j = p
        · rw [hget, if_pos hj] at hlj
          injection hlj with hlj
          rw [← hlj, List.mem_append] at hb
          rw [hj]
          rcases hb with hb | hb
          · obtain ⟨e, i, ce, g1, g2, g3⟩ := hl0 b hb
            exact ⟨e, i, ce, g1, hgrown.own g2, g3⟩
          · rw [List.mem_singleton] at hb
            subst hb
            exact ⟨k, i, cs, he, hgrown.own ho, hv⟩
        · rw [hget, if_neg hj] at hlj
          obtain ⟨e, i, ce, g1, g2, g3⟩ := ok.ext j lj b hlj hdj hb
          exact ⟨e, i, ce, g1, hgrown.own g2, g3⟩
      · intro j i b ho
        exact ok.fresh j i b (hown j i b ho)
      · intro j i b j' i' b' h1 h2
        exact ok.inj j i b j' i' b' (hown _ _ _ h1) (hown _ _ _ h2)
    unfold appendAcc
    cases hc : r.cache p with
    | none =>
      exact key [] (by simp) (by simp [hc])
    | some l =>
      dsimp only
      by_cases hany : l.any (fun b => b.ptr == a.ptr) = true
      · rw [if_pos hany]
        obtain ⟨b, hb, hbp⟩ := List.any_eq_true.mp hany
        have hbp : b.ptr = a.ptr := by simpa using hbp
        obtain ⟨e, j, ce, g1, g2, g3⟩ := ok.ext p l b hc hx hb
        obtain ⟨e1, e2⟩ := ok.inj _ _ _ _ _ _ g2 ho hbp
        subst e1; subst e2
        obtain ⟨_, m, hm, hmi⟩ := g2
        obtain ⟨_, m', hm', hmi'⟩ := ho
        rw [hm] at hm'
        injection hm' with hm'
        rw [hm', hmi'] at hmi
        injection hmi with hmi
        exact ⟨ok, Grown.refl _ _, l, hc, hmi ▸ hb⟩
      · rw [if_neg hany]
        exact key l (fun b hb => ok.ext p l b hc hx hb) (fun l1 h1 => by rw [hc] at h1; injection h1 with h1; exact h1.symm)

theorem appendAll_ok {decls : Nat → UDecl} (we : OnlyExterns decls) {k : Nat} (as : List Acc) {r : Registry}
    (ok : RegOk decls r) (ho : ∀ a ∈ as, (∃ i, OwnAt decls r k i a) ∧ a.case.void = false) :
    RegOk decls (as.foldl (fun q a => appendAcc q ((decls k).variant k) a) r) ∧
      Grown decls r (as.foldl (fun q a => appendAcc q ((decls k).variant k) a) r) ∧
      ∀ a ∈ as, ∃ l, (as.foldl (fun q a => appendAcc q ((decls k).variant k) a) r).cache ((decls k).variant k) = some l ∧
        a ∈ l := by
  induction as generalizing r with
  | nil => exact ⟨ok, Grown.refl _ _, by simp⟩
  | cons a as ih =>
    obtain ⟨⟨i, hi⟩, hv⟩ := ho a (by simp)
    obtain ⟨ok1, g1, l1, hl1, hm1⟩ := appendAcc_ok we ok hi hv
    have ho1 : ∀ b ∈ as, (∃ i, OwnAt decls (appendAcc r ((decls k).variant k) a) k i b) ∧ b.case.void = false := by
      intro b hb
      obtain ⟨⟨j, hj⟩, hvb⟩ := ho b (by simp [hb])
      exact ⟨⟨j, g1.own hj⟩, hvb⟩
    obtain ⟨ok2, g2, h2⟩ := ih ok1 ho1
    refine ⟨ok2, g1.trans g2, ?_⟩
    intro b hb
    rcases List.mem_cons.mp hb with hb | hb
    · subst hb
      obtain ⟨s, hs, _⟩ := g2 _ _ hl1
      exact ⟨_, hs, by simp [hm1]⟩
    · exact h2 b hb

theorem valuesOf_ok {decls : Nat → UDecl} {str : Bool} (we : OnlyExterns decls) {r r' : Registry} {k : Nat} {l : List Acc}
    (ok : RegOk decls r) (h : valuesOf decls str r k = some (r', l)) :
    RegOk decls r' ∧ Grown decls r r' ∧ (∀ i a, l[i]? = some a → OwnAt decls r' k i a ∧ (decls k).caseAt i a.case) ∧
      ∀ a ∈ l, ∃ l', r'.cache ((decls k).valueType k a.case) = some l' ∧ a ∈ l' := by
  unfold valuesOf at h
  cases ha : accessorsOf decls str r k with
  | none => rw [ha] at h; cases h
  | some p =>
    obtain ⟨r0, l0⟩ := p
    cases hf : (decls k).fields with
    | none => rw [ha, hf] at h; cases h
    | some cs =>
      rw [ha, hf] at h
      dsimp only at h
      obtain ⟨ok0, g0, hc0⟩ := accessorsOf_ok ok ha
      have hmap := ok0.own k l0 cs hc0 hf
      have hlen : cs.length = l0.length := by rw [← hmap, List.length_map]
      rw [hlen, List.take_length, if_neg (by omega)] at h
      injection h with h
      injection h with h1 h2
      subst h2
      have hown : ∀ i a, l0[i]? = some a → OwnAt decls r0 k i a :=
        fun i a hi => ⟨by rw [hf]; simp, l0, hc0, hi⟩
      have hfil : ∀ a ∈ l0.filter (fun a => !a.case.void), (∃ i, OwnAt decls r0 k i a) ∧ a.case.void = false := by
        intro a ha
        obtain ⟨hm, hv⟩ := List.mem_filter.mp ha
        obtain ⟨i, hi⟩ := List.getElem?_of_mem hm
        exact ⟨⟨i, hown i a hi⟩, by simpa using hv⟩
      obtain ⟨ok1, g1, h1'⟩ := appendAll_ok we _ ok0 hfil
      rw [h1] at ok1 g1 h1'
      refine ⟨ok1, g0.trans g1, ?_, ?_⟩
      · intro i a hi
        refine ⟨g1.own (hown i a hi), ?_⟩
        have hci : cs[i]? = some a.case := by rw [← hmap, List.getElem?_map, hi]; rfl
        unfold UDecl.fields at hf
        cases hd : decls k with
        | plain c' => rw [hd] at hf; injection hf with hf; rw [← hf] at hci; exact hci
        | extern => rw [hd] at hf; cases hf
        | extend p c' => rw [hd] at hf; injection hf with hf; rw [← hf] at hci; exact hci
      · intro a hm
        have hk : ∃ l', r'.cache k = some l' ∧ a ∈ l' := by
          obtain ⟨s, hs, _⟩ := g1 k l0 hc0
          exact ⟨_, hs, by simp [hm]⟩
        cases hv : a.case.void with
        | true =>
          have : (decls k).valueType k a.case = k := by
            unfold UDecl.valueType; rw [hv]; cases decls k <;> rfl
          rw [this]; exact hk
        | false =>
          have : (decls k).valueType k a.case = (decls k).variant k := by
            unfold UDecl.valueType UDecl.variant; rw [hv]; cases hd : decls k <;> rw [hd] at hf <;> first | rfl | cases hf
          rw [this]
          exact h1' a (List.mem_filter.mpr ⟨hm, by simp [hv]⟩)

theorem unmarshal_registry {S : Type} {decls : Nat → UDecl} {str : Bool} {r r' : Registry} {k : Nat} {v v' : UVal S} {t : Str}
    (ok : RegOk decls r) (h : unmarshalUText decls str r k v t = some (r', v')) : RegOk decls r' ∧ Grown decls r r' := by
  unfold unmarshalUText at h
  cases ha : accessorsOf decls str r k with
  | none => rw [ha] at h; cases h
  | some p =>
    obtain ⟨r0, l0⟩ := p
    rw [ha] at h
    dsimp only at h
    obtain ⟨ok0, g0, _⟩ := accessorsOf_ok ok ha
    have : r0 = r' := by
      cases hf : l0.find? (fun a => decide (a.case.field.text = t)) with
      | none => rw [hf] at h; injection h with h; injection h
      | some a => rw [hf] at h; injection h with h; injection h
    exact this ▸ ⟨ok0, g0⟩

theorem run_ok {decls : Nat → UDecl} {str : Bool} (we : OnlyExterns decls) {r : Registry} (ok : RegOk decls r) (o : UOp) :
    RegOk decls (UOp.run decls str r o) ∧ Grown decls r (UOp.run decls str r o) := by
  cases o with
  | cases k =>
    cases h : valuesOf decls str r k with
    | none =>
      have he : UOp.run decls str r (.cases k) = r := by
        show (match valuesOf decls str r k with | some p => p.1 | none => r) = r
        rw [h]
      rw [he]
      exact ⟨ok, Grown.refl _ _⟩
    | some p =>
      have he : UOp.run decls str r (.cases k) = p.1 := by
        show (match valuesOf decls str r k with | some p => p.1 | none => r) = p.1
        rw [h]
      rw [he]
      obtain ⟨g1, g2, _⟩ := valuesOf_ok we ok (r' := p.1) (l := p.2) h
      exact ⟨g1, g2⟩
  | read k t =>
    cases h : unmarshalUText decls str r k (UVal.mk none ()) t with
    | none =>
      have he : UOp.run decls str r (.read k t) = r := by
        show (match unmarshalUText decls str r k (UVal.mk none ()) t with | some p => p.1 | none => r) = r
        rw [h]
      rw [he]
      exact ⟨ok, Grown.refl _ _⟩
    | some p =>
      have he : UOp.run decls str r (.read k t) = p.1 := by
        show (match unmarshalUText decls str r k (UVal.mk none ()) t with | some p => p.1 | none => r) = p.1
        rw [h]
      rw [he]
      exact unmarshal_registry ok (r' := p.1) (v' := p.2) h

theorem runOps_ok {decls : Nat → UDecl} {str : Bool} (we : OnlyExterns decls) (h : List UOp) {r : Registry}
    (ok : RegOk decls r) : RegOk decls (runOps decls str r h) ∧ Grown decls r (runOps decls str r h) := by
  induction h generalizing r with
  | nil => exact ⟨ok, Grown.refl _ _⟩
  | cons o h ih =>
    obtain ⟨ok1, g1⟩ := run_ok (str := str) we ok o
    obtain ⟨ok2, g2⟩ := ih ok1
    exact ⟨ok2, g1.trans g2⟩

/-- Every accessor of a type is of a case that belongs to it. -/
theorem cached_belongs {decls : Nat → UDecl} {r : Registry} (ok : RegOk decls r) {k : Nat} {l : List Acc} {a : Acc}
    (hl : r.cache k = some l) (ha : a ∈ l) : ∃ e i, Belongs decls k e i a.case ∧ OwnAt decls r e i a := by
  have at_ : ∀ e i, OwnAt decls r e i a → (decls e).caseAt i a.case := by
    intro e i ⟨hf, m, hm, hi⟩
    cases hfe : (decls e).fields with
    | none => exact absurd hfe hf
    | some cs =>
      have hmap := ok.own e m cs hm hfe
      have hci : cs[i]? = some a.case := by rw [← hmap, List.getElem?_map, hi]; rfl
      unfold UDecl.fields at hfe
      cases hd : decls e with
      | plain c' => rw [hd] at hfe; injection hfe with hfe; rw [← hfe] at hci; exact hci
      | extern => rw [hd] at hfe; cases hfe
      | extend p c' => rw [hd] at hfe; injection hfe with hfe; rw [← hfe] at hci; exact hci
  cases hf : (decls k).fields with
  | none =>
    have hd : decls k = .extern := by
      unfold UDecl.fields at hf
      cases hd : decls k with
      | plain c => rw [hd] at hf; cases hf
      | extern => rfl
      | extend p c => rw [hd] at hf; cases hf
    obtain ⟨e, i, cs, g1, g2, g3⟩ := ok.ext k l a hl hd ha
    exact ⟨e, i, ⟨at_ e i g2, Or.inr ⟨⟨cs, g1⟩, g3⟩⟩, g2⟩
  | some cs =>
    obtain ⟨i, hi⟩ := List.getElem?_of_mem ha
    have ho : OwnAt decls r k i a := ⟨by rw [hf]; simp, l, hl, hi⟩
    exact ⟨k, i, ⟨at_ k i ho, Or.inl rfl⟩, ho⟩

theorem getD_text (c : UCase) : c.field.text = c.field.txt.getD [] := rfl

/-- **C233** (partial): in a program whose types of unions are extended by anyone in any order, a value of a case that has a text
without verbs that no other case of its type has is written as that text, which is also its string; and reading the text into any
value of that type, at any later moment, selects that case, so that the accessor of the case may read it. (What it does not say,
because it is false: that the storage is restored, `text_storage_fails`; that cases whose texts have verbs are recognised,
`text_verbs_fails`; and that cases without a text are not selected by the empty one, `text_empty_fails`.) -/
theorem texts_restored_partial {S : Type} (sprintf : Str → S → Str) (sprint : UCase → S → Str) (decls : Nat → UDecl) (str : Bool)
    (we : OnlyExterns decls) (h h' : List UOp) (e i : Nat) (a : Acc) (t : Str)
    (ha : Handed decls str h e i a)
    (ht : a.case.field.txt = some t) (hv : '%' ∉ t)
    (hd : TextsDiffer decls ((decls e).valueType e a.case)) (v w : UVal S) (hva : v.tag = some a) :
    marshalUText sprintf v = some t ∧ stringOfU sprintf sprint v = t ∧
    ∃ r, unmarshalUText decls str (runOps decls str Registry.init (h ++ UOp.cases e :: h')) ((decls e).valueType e a.case) w t
        = some (r, { w with tag := some a }) ∧
      valueOfU { w with tag := some a } = valueOfU v ∧ mayGet a { w with tag := some a } = true := by
  have htext : a.case.field.text = t := by unfold PCase.text; rw [ht]; rfl
  have hhas : a.case.field.hasText = true := by
    unfold PCase.hasText PCase.zero
    rw [ht, htext]
    by_cases hn : t = [] <;> simp [hn]
  have hfmt : a.case.field.fmts = false := by
    unfold PCase.fmts; rw [htext]; simpa using hv
  refine ⟨?_, ?_, ?_⟩
  · unfold marshalUText; rw [hva]; simp [hhas, hfmt, htext]
  · unfold stringOfU; rw [hva]; simp [hhas, hfmt, htext]
  obtain ⟨r1, l, hl, hi⟩ := ha
  obtain ⟨ok0, _⟩ := runOps_ok (str := str) we h (RegOk.init decls)
  obtain ⟨ok1, _, hat, hin⟩ := valuesOf_ok we ok0 hl
  obtain ⟨l1, hl1, hm1⟩ := hin a (List.mem_of_getElem? hi)
  have hrun : runOps decls str Registry.init (h ++ UOp.cases e :: h') = runOps decls str r1 h' := by
    unfold runOps
    rw [List.foldl_append, List.foldl_cons]
    have : UOp.run decls str (List.foldl (UOp.run decls str) Registry.init h) (UOp.cases e) = r1 := by
      show (match valuesOf decls str (runOps decls str Registry.init h) e with | some p => p.1 | none => _) = r1
      rw [hl]
    rw [this]
  rw [hrun]
  obtain ⟨ok2, g2⟩ := runOps_ok (str := str) we h' ok1
  generalize runOps decls str r1 h' = r2 at ok2 g2
  generalize (decls e).valueType e a.case = k at hd hl1
  obtain ⟨s, hs, _⟩ := g2 k l1 hl1
  obtain ⟨e0, i0, hb0, ho0⟩ := cached_belongs ok2 hs (a := a) (by simp [hm1])
  refine ⟨r2, ?_, ?_, ?_⟩
  · unfold unmarshalUText accessorsOf
    rw [hs]
    dsimp only
    cases hf : (l1 ++ s).find? (fun a => decide (a.case.field.text = t)) with
    | none =>
      have := List.find?_eq_none.mp hf a (by simp [hm1])
      simp [htext] at this
    | some b =>
      have hbt : b.case.field.text = t := by simpa using List.find?_some hf
      obtain ⟨e1, i1, hb1, ho1⟩ := cached_belongs ok2 hs (List.mem_of_find?_eq_some hf)
      obtain ⟨q1, q2⟩ := hd _ _ _ _ _ _ hb1 hb0 (by rw [← getD_text, ← getD_text, hbt, htext])
      subst q1; subst q2
      obtain ⟨_, m, hm, hmi⟩ := ho1
      obtain ⟨_, m', hm', hmi'⟩ := ho0
      rw [hm] at hm'
      injection hm' with hm'
      rw [hm', hmi'] at hmi
      injection hmi with hmi
      rw [hmi]
  · unfold valueOfU; rw [hva]
  · unfold mayGet; simp

/-- Reading a text either leaves the value alone, or selects a case of its type that has that text, and keeps the storage; if no
case of the type has the text the value is left alone. -/
theorem text_selects {S : Type} (decls : Nat → UDecl) (str : Bool) (we : OnlyExterns decls) (h : List UOp) (k : Nat) (t : Str)
    (v v' : UVal S) (r : Registry)
    (hu : unmarshalUText decls str (runOps decls str Registry.init h) k v t = some (r, v')) :
    v'.ram = v.ram ∧
    (v' = v ∨ ∃ a e i, v'.tag = some a ∧ Belongs decls k e i a.case ∧ a.case.field.txt.getD [] = t) ∧
    ((∀ e i c, Belongs decls k e i c → c.field.txt.getD [] ≠ t) → v' = v) := by
  obtain ⟨ok0, _⟩ := runOps_ok (str := str) we h (RegOk.init decls)
  generalize runOps decls str Registry.init h = r0 at ok0 hu
  unfold unmarshalUText at hu
  cases ha : accessorsOf decls str r0 k with
  | none => rw [ha] at hu; cases hu
  | some p =>
    obtain ⟨r1, l⟩ := p
    rw [ha] at hu
    dsimp only at hu
    obtain ⟨ok1, _, hl⟩ := accessorsOf_ok ok0 ha
    cases hf : l.find? (fun a => decide (a.case.field.text = t)) with
    | none =>
      rw [hf] at hu
      injection hu with hu
      injection hu with _ hu
      subst hu
      exact ⟨rfl, Or.inl rfl, fun _ => rfl⟩
    | some a =>
      rw [hf] at hu
      injection hu with hu
      injection hu with _ hu
      subst hu
      have hat : a.case.field.text = t := by simpa using List.find?_some hf
      rw [getD_text] at hat
      obtain ⟨e, i, hb, _⟩ := cached_belongs ok1 hl (List.mem_of_find?_eq_some hf)
      exact ⟨rfl, Or.inr ⟨a, e, i, rfl, hb, hat⟩, fun hn => absurd hat (hn e i _ hb)⟩

/-- Whatever is registered when: two accessors the program is handed are the same if and only if they are of the same case of the
same declaration, so a switch over `ValueOf` tells the cases apart and `Get` of a case only reads the values of that case. -/
theorem cases_told_apart {S : Type} (decls : Nat → UDecl) (str : Bool) (we : OnlyExterns decls) (h h' : List UOp)
    (e i e' i' : Nat) (a a' : Acc)
    (ha : Handed decls str h e i a) (ha' : Handed decls str (h ++ UOp.cases e :: h') e' i' a') (v : UVal S)
    (hv : v.tag = some a) :
    (valueOfU v = some a'.ptr ↔ e = e' ∧ i = i') ∧ (mayGet a' v = true ↔ e = e' ∧ i = i') := by
  obtain ⟨r1, l, hl, hi⟩ := ha
  obtain ⟨r2, l', hl', hi'⟩ := ha'
  obtain ⟨ok0, _⟩ := runOps_ok (str := str) we h (RegOk.init decls)
  obtain ⟨ok1, _, hat, _⟩ := valuesOf_ok we ok0 hl
  have hrun : runOps decls str Registry.init (h ++ UOp.cases e :: h') = runOps decls str r1 h' := by
    unfold runOps
    rw [List.foldl_append, List.foldl_cons]
    have : UOp.run decls str (List.foldl (UOp.run decls str) Registry.init h) (UOp.cases e) = r1 := by
      show (match valuesOf decls str (runOps decls str Registry.init h) e with | some p => p.1 | none => _) = r1
      rw [hl]
    rw [this]
  rw [hrun] at hl'
  obtain ⟨okm, gm⟩ := runOps_ok (str := str) we h' ok1
  obtain ⟨ok2, g2, hat', _⟩ := valuesOf_ok we okm hl'
  have o1 : OwnAt decls r2 e i a := g2.own (gm.own (hat i a hi).1)
  have o2 : OwnAt decls r2 e' i' a' := (hat' i' a' hi').1
  have main : a.ptr = a'.ptr ↔ e = e' ∧ i = i' := by
    constructor
    · intro hp; exact ok2.inj _ _ _ _ _ _ o1 o2 hp
    · rintro ⟨q1, q2⟩
      subst q1; subst q2
      obtain ⟨_, m, hm, hmi⟩ := o1
      obtain ⟨_, m', hm', hmi'⟩ := o2
      rw [hm] at hm'
      injection hm' with hm'
      rw [hm', hmi'] at hmi
      injection hmi with hmi
      rw [hmi]
  constructor
  · unfold valueOfU; rw [hv]; simpa using main
  · unfold mayGet; rw [hv]; simpa using main

/-! ## Examples, and what is false -/

/-- A case with a text. -/
def txtCase (n t : Str) (void : Bool) : UCase := { field := { name := n, txt := some t, json := [] }, void := void }

/-- An extern type (0), two extensions of it (1 and 2), and a type of its own (3). -/
def externDecls : Nat → UDecl
  | 0 => .extern
  | 1 => .extend 0 [txtCase ['A'] ['a'] false, txtCase ['B'] ['b'] false]
  | 2 => .extend 0 [txtCase ['C'] ['c'] false]
  | 3 => .plain [txtCase ['O', 'n'] ['o', 'n'] true, txtCase ['X'] ['x', '=', '%', 'v'] false]
  | 4 => .plain [{ field := { name := ['U'], txt := none, json := [] }, void := true }, txtCase ['E'] [] true]
  | 5 => .plain [txtCase ['P'] ['p'] false]
  | _ => .extern

theorem externDecls_only : OnlyExterns externDecls := by
  intro e p cs h
  match e, h with
  | 1, h => injection h with h _; rw [← h]; rfl
  | 2, h => injection h with h _; rw [← h]; rfl
  | 0, h => cases h
  | 3, h => cases h
  | 4, h => cases h
  | 5, h => cases h
  | n + 6, h => cases h

theorem extern_texts_differ : TextsDiffer externDecls 0 := by
  have key : ∀ e i c, Belongs externDecls 0 e i c →
      (e = 1 ∧ i = 0 ∧ c.field.txt.getD [] = ['a']) ∨ (e = 1 ∧ i = 1 ∧ c.field.txt.getD [] = ['b']) ∨
      (e = 2 ∧ i = 0 ∧ c.field.txt.getD [] = ['c']) := by
    intro e i c ⟨hc, hb⟩
    rcases hb with hb | ⟨⟨cs, hb⟩, _⟩
    · subst hb; exact hc.elim
    · match e, hb with
      | 1, _ =>
        match i, hc with
        | 0, hc => injection hc with hc; subst hc; exact Or.inl ⟨rfl, rfl, rfl⟩
        | 1, hc => injection hc with hc; subst hc; exact Or.inr (Or.inl ⟨rfl, rfl, rfl⟩)
      | 2, _ =>
        match i, hc with
        | 0, hc => injection hc with hc; subst hc; exact Or.inr (Or.inr ⟨rfl, rfl, rfl⟩)
      | 0, hb => cases hb
      | 3, hb => cases hb
      | 4, hb => cases hb
      | 5, hb => cases hb
      | n + 6, hb => cases hb
  intro e i c e' i' c' h h' ht
  rcases key e i c h with ⟨a, b, x⟩ | ⟨a, b, x⟩ | ⟨a, b, x⟩ <;>
    rcases key e' i' c' h' with ⟨a', b', x'⟩ | ⟨a', b', x'⟩ | ⟨a', b', x'⟩ <;>
    first
      | exact ⟨by omega, by omega⟩
      | (rw [x, x'] at ht; exact absurd ht (by decide))

theorem handed_b : Handed externDecls true [UOp.cases 2, UOp.read 0 ['b']] 1 1 ⟨2, txtCase ['B'] ['b'] false⟩ :=
  ⟨_, _, rfl, rfl⟩

theorem handed_c : Handed externDecls true ([UOp.cases 2, UOp.read 0 ['b']] ++ UOp.cases 1 :: [UOp.cases 1]) 2 0
    ⟨0, txtCase ['C'] ['c'] false⟩ :=
  ⟨_, _, rfl, rfl⟩

/-- A case of the second extension that is registered. -/
example : ∃ r, unmarshalUText externDecls true
    (runOps externDecls true Registry.init ([UOp.cases 2, UOp.read 0 ['b']] ++ UOp.cases 1 :: [UOp.cases 2])) 0
    (UVal.mk none ['s']) ['b'] = some (r, UVal.mk (some ⟨2, txtCase ['B'] ['b'] false⟩) ['s']) := by
  obtain ⟨_, _, r, hr, _⟩ := texts_restored_partial (S := Str) (fun t _ => t) (fun _ s => s) externDecls true externDecls_only
    [UOp.cases 2, UOp.read 0 ['b']] [UOp.cases 2] 1 1 _ ['b'] handed_b rfl (by decide) extern_texts_differ
    (UVal.mk (some ⟨2, txtCase ['B'] ['b'] false⟩) []) (UVal.mk none ['s']) rfl
  exact ⟨r, hr⟩

/-- It is not a case of the other extension. -/
example : mayGet ⟨0, txtCase ['C'] ['c'] false⟩ (UVal.mk (some ⟨2, txtCase ['B'] ['b'] false⟩) ()) = false := by
  have := (cases_told_apart externDecls true externDecls_only _ [UOp.cases 1] 1 1 2 0 _ _ handed_b handed_c
    (UVal.mk (some ⟨2, txtCase ['B'] ['b'] false⟩) ()) rfl).2
  simpa using this

/-- A text that no extension has leaves the value alone. -/
example (r : Registry) (v' : UVal Nat)
    (h : unmarshalUText externDecls true (runOps externDecls true Registry.init [UOp.cases 1]) 0 (UVal.mk none 7) ['c'] = some (r, v')) :
    v'.ram = 7 :=
  (text_selects externDecls true externDecls_only _ 0 ['c'] _ v' r h).1

/-- The round trip in full, with the storage. -/
def TextRoundTripClaim : Prop :=
  ∀ (decls : Nat → UDecl) (str : Bool) (h : List UOp) (e i : Nat) (a : Acc) (t : Str) (v w w' : UVal Nat) (r : Registry),
    OnlyExterns decls → Handed decls str h e i a → v.tag = some a → TextsDiffer decls ((decls e).valueType e a.case) →
    marshalUText (fun t _ => t) v = some t →
    unmarshalUText decls str (runOps decls str Registry.init (h ++ [UOp.cases e])) ((decls e).valueType e a.case) w t = some (r, w') →
    w' = v

/-- The storage is not restored: it stays as it was. -/
theorem text_storage_fails : ¬ TextRoundTripClaim := by
  intro hc
  have := hc externDecls true [UOp.cases 2, UOp.read 0 ['b']] 1 1 _ ['b'] (UVal.mk (some ⟨2, txtCase ['B'] ['b'] false⟩) 1)
    (UVal.mk none 7) (UVal.mk (some ⟨2, txtCase ['B'] ['b'] false⟩) 7) _ externDecls_only handed_b rfl extern_texts_differ rfl rfl
  injection this with _ this
  exact absurd this (by decide)

/-- A case whose text has verbs is written with its value in it, which is read as the text of no case: the value is left alone. -/
theorem text_verbs_fails (n : Nat) :
    marshalUText (S := Nat) (fun t x => t.take 2 ++ (Nat.toDigits 10 x)) (UVal.mk (some ⟨1, txtCase ['X'] ['x', '=', '%', 'v'] false⟩) 5)
      = some ['x', '=', '5'] ∧
    ∃ r, unmarshalUText externDecls false (runOps externDecls false Registry.init [UOp.cases 3]) 3 (UVal.mk none n) ['x', '=', '5']
      = some (r, UVal.mk none n) :=
  ⟨by decide, _, rfl⟩

/-- The empty text is that of a case that has none, if that is the first; and the case that has the empty text is not selected. -/
theorem text_empty_fails :
    marshalUText (S := Nat) (fun t _ => t) (UVal.mk (some ⟨1, txtCase ['E'] [] true⟩) 0) = some [] ∧
    marshalUText (S := Nat) (fun t _ => t) (UVal.mk (some ⟨0, { field := { name := ['U'], txt := none, json := [] }, void := true }⟩) 0) = none ∧
    ∃ r a, unmarshalUText externDecls false (runOps externDecls false Registry.init [UOp.cases 4]) 4 (UVal.mk none 0) []
      = some (r, UVal.mk (some a) 0) ∧ a.case.field.name = ['U'] :=
  ⟨rfl, rfl, _, _, rfl, rfl⟩

/-- Reading any text into a value of an extern type that no extension has been registered for panics. -/
theorem extern_alone_panics {S : Type} (decls : Nat → UDecl) (str : Bool) (k : Nat) (v : UVal S) (t : Str)
    (h : decls k = .extern) : unmarshalUText decls str Registry.init k v t = none := by
  unfold unmarshalUText accessorsOf Registry.init
  dsimp only
  rw [h]
  rfl

/-- The extern type of the example. -/
example : unmarshalUText externDecls true Registry.init 0 (UVal.mk none ()) ['a'] = none :=
  extern_alone_panics externDecls true 0 _ _ rfl

/-- The types of a program in which a type that is not extern (5) is extended, by 6. -/
def plainExtended : Nat → UDecl
  | 5 => .plain [txtCase ['P'] ['p'] false]
  | 6 => .extend 5 [txtCase ['Q'] ['q'] false]
  | _ => .extern

/-- That only extern types are extended is needed: if the extension of another type comes first, the type loses its own cases. -/
theorem extend_plain_fails :
    (∃ r, unmarshalUText plainExtended true (runOps plainExtended true Registry.init [UOp.cases 6]) 5 (UVal.mk none ()) ['p']
      = some (r, UVal.mk none ())) ∧
    (∃ r a, unmarshalUText plainExtended true (runOps plainExtended true Registry.init [UOp.cases 5, UOp.cases 6]) 5 (UVal.mk none ()) ['p']
      = some (r, UVal.mk (some a) ())) :=
  ⟨⟨_, rfl⟩, ⟨_, _, rfl⟩⟩

end Verif.Xyz.Ext
