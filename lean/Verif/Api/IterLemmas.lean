import Verif.Api.StructSpec
import Mathlib.Data.List.Nodup
/-! Lemmas about iteration. -/
namespace Verif.Api

/-- The names of the namespaces. -/
def Spaces.keys : Spaces → List Str
  | .nil => []
  | .cons k _ r => k :: r.keys

mutual
def Tree.iterA : Tree → List Nat
  | .mk fns _ ns => fns.map Fn.addr ++ (ns.itersA.map Prod.snd).flatten
def Spaces.itersA : Spaces → List (Str × List Nat)
  | .nil => []
  | .cons name t rest => insertSpace name t.iterA rest.itersA
end

mutual
def Tree.addrs : Tree → List Nat
  | .mk fns _ ns => fns.map Fn.addr ++ ns.addrs
def Spaces.addrs : Spaces → List Nat
  | .nil => []
  | .cons _ t r => t.addrs ++ r.addrs
end

theorem insertSpace_map {α β : Type} (g : List α → List β) (k : Str) (x : List α) (l : List (Str × List α)) :
    insertSpace k (g x) (l.map fun p => (p.1, g p.2)) = (insertSpace k x l).map fun p => (p.1, g p.2) := by
  induction l with
  | nil => rfl
  | cons p l ih =>
    obtain ⟨k', y⟩ := p
    simp only [List.map_cons, insertSpace]
    split
    · rfl
    · simp [ih]

theorem insertSpace_perm {α : Type} (k : Str) (x : List α) (l : List (Str × List α)) :
    (insertSpace k x l).Perm ((k, x) :: l) := by
  induction l with
  | nil => exact List.Perm.refl _
  | cons p l ih =>
    obtain ⟨k', y⟩ := p
    simp only [insertSpace]
    split
    · exact List.Perm.refl _
    · exact (List.Perm.cons _ ih).trans (List.Perm.swap _ _ _)

mutual
theorem Tree.iterA_eq (t : Tree) : t.iter.map (fun p => p.1.addr) = t.iterA := by
  match t with
  | .mk fns scs ns =>
    unfold Tree.iter Tree.iterA
    rw [← Spaces.itersA_eq ns]
    simp [List.map_flatten, Function.comp_def]
theorem Spaces.itersA_eq (ns : Spaces) :
    ns.iters.map (fun p => (p.1, p.2.map fun q => q.1.addr)) = ns.itersA := by
  match ns with
  | .nil => rfl
  | .cons name t rest =>
    unfold Spaces.iters Spaces.itersA
    rw [← Spaces.itersA_eq rest, ← Tree.iterA_eq t]
    exact (insertSpace_map (fun l : List (Fn × Tree) => l.map fun q => q.1.addr) name t.iter rest.iters).symm
end

mutual
theorem Tree.iterA_perm (t : Tree) : t.iterA.Perm t.addrs := by
  match t with
  | .mk fns scs ns =>
    unfold Tree.iterA Tree.addrs
    exact (Spaces.itersA_perm ns).append_left _
theorem Spaces.itersA_perm (ns : Spaces) : ((ns.itersA.map Prod.snd).flatten).Perm ns.addrs := by
  match ns with
  | .nil => exact List.Perm.refl _
  | .cons name t rest =>
    unfold Spaces.itersA Spaces.addrs
    have h1 := ((insertSpace_perm name t.iterA rest.itersA).map Prod.snd).flatten
    refine h1.trans ?_
    simp only [List.map_cons, List.flatten_cons]
    exact (Tree.iterA_perm t).append (Spaces.itersA_perm rest)
end

mutual
theorem Tree.link_iterA (t : Tree) (h : Heap) (p : Slice) : (t.link h p).2.iterA = t.iterA := by
  match t with
  | .mk fns scs ns =>
    unfold Tree.link Tree.iterA
    rw [Spaces.link_itersA ns h p]
    simp [Function.comp_def]
theorem Spaces.link_itersA (ns : Spaces) (h : Heap) (p : Slice) : (ns.link h p).2.itersA = ns.itersA := by
  match ns with
  | .nil => rfl
  | .cons name t rest =>
    unfold Spaces.link Spaces.itersA
    rw [Tree.link_iterA t, Spaces.link_itersA rest]
end

theorem linkTop_itersA (ns : Spaces) (h : Heap) : (linkTop h ns).2.itersA = ns.itersA := by
  induction ns using Spaces.rec (motive_1 := fun _ => True) generalizing h with
  | mk => trivial
  | nil => rfl
  | cons name t rest _ ih =>
    unfold linkTop Spaces.itersA
    rw [Tree.link_iterA t, ih]

theorem linked_iterA (t : Tree) : (linked t).2.iterA = t.iterA := by
  obtain ⟨fns, scs, ns⟩ := t
  unfold linked Tree.iterA
  dsimp only [Tree.spaces, Tree.functions]
  rw [linkTop_itersA]

theorem Spaces.set_addrs (ns : Spaces) (k : Str) (t : Tree) (h : k ∉ ns.keys) :
    (ns.set k t).addrs = ns.addrs ++ t.addrs := by
  induction ns using Spaces.rec (motive_1 := fun _ => True) with
  | mk => trivial
  | nil => simp [Spaces.set, Spaces.addrs]
  | cons k' t' r _ ih =>
    simp only [Spaces.keys, List.mem_cons, not_or] at h
    unfold Spaces.set
    rw [if_neg (Ne.symm h.1)]
    simp [Spaces.addrs, ih h.2]

theorem Spaces.set_keys (ns : Spaces) (k : Str) (t : Tree) (x : Str) :
    x ∈ (ns.set k t).keys ↔ x = k ∨ x ∈ ns.keys := by
  induction ns using Spaces.rec (motive_1 := fun _ => True) with
  | mk => trivial
  | nil => simp [Spaces.set, Spaces.keys]
  | cons k' t' r _ ih =>
    unfold Spaces.set
    split
    · rename_i e
      subst e
      simp [Spaces.keys]
    · simp only [Spaces.keys, List.mem_cons, ih]
      tauto

mutual
theorem structureOf_addrs (s : GoStruct) (h : s.Distinct) : (structureOf s).addrs.Perm s.funcs := by
  match s with
  | .mk fs =>
    unfold GoStruct.Distinct at h
    unfold structureOf GoStruct.funcs
    have := fieldsOf_addrs fs [] [] .nil h.1 (fun x _ => by simp [Spaces.keys]) h.2
    simpa [Spaces.addrs] using this
theorem fieldsOf_addrs (fs : Fields) (fns : List Fn) (scs : List Scenario) (ns : Spaces) (hn : fs.names.Nodup)
    (hd : ∀ x ∈ fs.names, x ∉ ns.keys) (h : fs.Distinct) :
    (fieldsOf fs fns scs ns).addrs.Perm (fns.map Fn.addr ++ ns.addrs ++ fs.funcs) := by
  match fs with
  | .nil => simp [fieldsOf, Tree.addrs, Fields.funcs]
  | .func name api addr rest =>
    unfold fieldsOf
    unfold Fields.Distinct at h
    unfold Fields.names at hn hd
    refine (fieldsOf_addrs rest _ scs ns hn hd h).trans ?_
    simp only [List.map_append, List.map_cons, List.map_nil, Fields.funcs, List.append_assoc]
    refine List.Perm.append_left _ ?_
    simp only [List.singleton_append]
    exact (List.perm_middle (l₁ := ns.addrs)).symm
  | .register name ss rest =>
    unfold fieldsOf
    unfold Fields.Distinct at h
    unfold Fields.names at hn hd
    rw [List.nodup_cons] at hn
    refine (fieldsOf_addrs rest _ _ _ hn.2 ?_ h).trans ?_
    · intro x hx
      rw [Spaces.set_keys]
      rintro (e | e)
      · exact hn.1 (e ▸ hx)
      · exact hd x (List.mem_cons_of_mem _ hx) e
    · rw [Spaces.set_addrs _ _ _ (hd name (List.mem_cons_self ..))]
      simp [Tree.addrs, Spaces.addrs, Fields.funcs]
  | .sub name s rest =>
    unfold fieldsOf
    unfold Fields.Distinct at h
    unfold Fields.names at hn hd
    rw [List.nodup_cons] at hn
    refine (fieldsOf_addrs rest _ _ _ hn.2 ?_ h.2).trans ?_
    · intro x hx
      rw [Spaces.set_keys]
      rintro (e | e)
      · exact hn.1 (e ▸ hx)
      · exact hd x (List.mem_cons_of_mem _ hx) e
    · rw [Spaces.set_addrs _ _ _ (hd name (List.mem_cons_self ..))]
      simp only [Fields.funcs, List.append_assoc]
      refine List.Perm.append_left _ (List.Perm.append_left _ ?_)
      exact (structureOf_addrs s h.1).append_right _
  | .other rest =>
    unfold fieldsOf
    unfold Fields.Distinct at h
    unfold Fields.names at hn hd
    exact fieldsOf_addrs rest fns scs ns hn hd h
end

/-! ## Order of maps -/

mutual
/-- Keys of the maps are distinct. -/
def Tree.Keyed : Tree → Prop
  | .mk _ _ ns => ns.keys.Nodup ∧ ns.Keyed
/-- In all namespaces. -/
def Spaces.Keyed : Spaces → Prop
  | .nil => True
  | .cons _ t r => t.Keyed ∧ r.Keyed
end

theorem Spaces.set_nodup (ns : Spaces) (k : Str) (t : Tree) (h : ns.keys.Nodup) : (ns.set k t).keys.Nodup := by
  induction ns using Spaces.rec (motive_1 := fun _ => True) with
  | mk => trivial
  | nil => simp [Spaces.set, Spaces.keys]
  | cons k' t' r _ ih =>
    unfold Spaces.set
    simp only [Spaces.keys, List.nodup_cons] at h
    split
    · rename_i e
      subst e
      simpa [Spaces.keys] using h
    · rename_i e
      simp only [Spaces.keys, List.nodup_cons]
      refine ⟨?_, ih h.2⟩
      rw [Spaces.set_keys]
      rintro (q | q)
      · exact e q
      · exact h.1 q

theorem Spaces.set_keyed (ns : Spaces) (k : Str) (t : Tree) (h : ns.Keyed) (ht : t.Keyed) : (ns.set k t).Keyed := by
  induction ns using Spaces.rec (motive_1 := fun _ => True) with
  | mk => trivial
  | nil => simp [Spaces.set, Spaces.Keyed, ht]
  | cons k' t' r _ ih =>
    unfold Spaces.set
    unfold Spaces.Keyed at h
    split
    · exact ⟨ht, h.2⟩
    · exact ⟨h.1, ih h.2⟩

mutual
theorem structureOf_keyed (s : GoStruct) : (structureOf s).Keyed := by
  match s with
  | .mk fs =>
    unfold structureOf
    exact fieldsOf_keyed fs [] [] .nil List.nodup_nil trivial
theorem fieldsOf_keyed (fs : Fields) (fns : List Fn) (scs : List Scenario) (ns : Spaces) (hn : ns.keys.Nodup)
    (h : ns.Keyed) : (fieldsOf fs fns scs ns).Keyed := by
  match fs with
  | .nil => exact ⟨hn, h⟩
  | .func name api addr rest => unfold fieldsOf; exact fieldsOf_keyed rest _ _ _ hn h
  | .register name ss rest =>
    unfold fieldsOf
    exact fieldsOf_keyed rest _ _ _ (Spaces.set_nodup _ _ _ hn) (Spaces.set_keyed _ _ _ h ⟨List.nodup_nil, trivial⟩)
  | .sub name s rest =>
    unfold fieldsOf
    exact fieldsOf_keyed rest _ _ _ (Spaces.set_nodup _ _ _ hn) (Spaces.set_keyed _ _ _ h (structureOf_keyed s))
  | .other rest => unfold fieldsOf; exact fieldsOf_keyed rest _ _ _ hn h
end

theorem lt_asymm_str {a b : Str} (h : a < b) : ¬ b < a := List.lt_asymm h

theorem lt_or_of_ne {a b : Str} (h : a ≠ b) : a < b ∨ b < a := by
  by_contra hc
  rw [not_or] at hc
  exact h (List.le_antisymm (List.not_lt.mp hc.2) (List.not_lt.mp hc.1))

theorem lt_trans_str {a b c : Str} (h : a < b) (k : b < c) : a < c := List.lt_trans h k

theorem insertSpace_swap {α : Type} {a b : Str} (hab : a ≠ b) (x y : List α) (l : List (Str × List α)) :
    insertSpace a x (insertSpace b y l) = insertSpace b y (insertSpace a x l) := by
  induction l with
  | nil =>
    simp only [insertSpace]
    rcases lt_or_of_ne hab with h | h
    · simp [h, lt_asymm_str h]
    · simp [h, lt_asymm_str h]
  | cons p l ih =>
    obtain ⟨k, z⟩ := p
    simp only [insertSpace]
    by_cases h1 : b < k
    · by_cases h2 : a < k
      · simp only [h1, h2, if_true, insertSpace]
        rcases lt_or_of_ne hab with h | h
        · simp [h, lt_asymm_str h, h1]
        · simp [h, lt_asymm_str h, h2]
      · simp only [h1, h2, if_true, if_false, insertSpace]
        have : ¬ a < b := fun h => h2 (lt_trans_str h h1)
        simp [this, h2]
    · by_cases h2 : a < k
      · simp only [h1, h2, if_true, if_false, insertSpace]
        have : ¬ b < a := fun h => h1 (lt_trans_str h h2)
        simp [this, h1]
      · simp only [h1, h2, if_false, insertSpace, ih]

end Verif.Api
