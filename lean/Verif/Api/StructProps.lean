import Verif.Api.LinkLemmas
import Verif.Api.IterLemmas
/-!
# Properties of API structures (C140-C142)
-/
namespace Verif.Api

/-! ## C140: the functions of a structure -/

mutual
/-- The same structure, whose maps are iterated over in another order. -/
inductive Same : Tree → Tree → Prop where
  | mk {fns : List Fn} {scs : List Scenario} {ns ns' : Spaces} (h : SameSpaces ns ns') :
    Same (.mk fns scs ns) (.mk fns scs ns')
/-- The same map. -/
inductive SameSpaces : Spaces → Spaces → Prop where
  | nil : SameSpaces .nil .nil
  | cons {k : Str} {t t' : Tree} {r r' : Spaces} (h : Same t t') (hs : SameSpaces r r') :
    SameSpaces (.cons k t r) (.cons k t' r')
  | swap {a b : Str} {t u : Tree} {r : Spaces} : SameSpaces (.cons a t (.cons b u r)) (.cons b u (.cons a t r))
  | trans {r r' r'' : Spaces} (h : SameSpaces r r') (k : SameSpaces r' r'') : SameSpaces r r''
end

mutual
theorem Same.iterA {t t' : Tree} (h : Same t t') (hk : t.Keyed) : t.iterA = t'.iterA ∧ t'.Keyed := by
  match h with
  | .mk hs =>
    unfold Tree.Keyed at hk
    obtain ⟨e, p, k⟩ := hs.itersA hk.1 hk.2
    unfold Tree.iterA
    rw [e]
    exact ⟨rfl, p.nodup_iff.mp hk.1, k⟩
theorem SameSpaces.itersA {r r' : Spaces} (h : SameSpaces r r') (hn : r.keys.Nodup) (hk : r.Keyed) :
    r.itersA = r'.itersA ∧ r.keys.Perm r'.keys ∧ r'.Keyed := by
  match h with
  | .nil => exact ⟨rfl, List.Perm.refl _, trivial⟩
  | .cons ht hr =>
    unfold Spaces.keys at hn
    rw [List.nodup_cons] at hn
    unfold Spaces.Keyed at hk
    obtain ⟨e1, k1⟩ := ht.iterA hk.1
    obtain ⟨e2, p2, k2⟩ := hr.itersA hn.2 hk.2
    unfold Spaces.itersA Spaces.keys
    rw [e1, e2]
    exact ⟨rfl, p2.cons _, k1, k2⟩
  | .swap =>
    simp only [Spaces.keys, List.nodup_cons, List.mem_cons, not_or] at hn
    simp only [Spaces.Keyed] at hk
    simp only [Spaces.itersA, Spaces.keys, Spaces.Keyed]
    exact ⟨insertSpace_swap hn.1.1 _ _ _, List.Perm.swap _ _ _, hk.2.1, hk.1, hk.2.2⟩
  | .trans h1 h2 =>
    obtain ⟨e1, p1, k1⟩ := h1.itersA hn hk
    obtain ⟨e2, p2, k2⟩ := h2.itersA (p1.nodup_iff.mp hn) k1
    exact ⟨e1.trans e2, p1.trans p2, k2⟩
end

/-- C140: iteration over the structure of a Go struct goes over all its functions, those of nested structs too, and
over each once, whatever the order of maps. -/
theorem iter_complete (s : GoStruct) (hd : s.Distinct) (t : Tree) (ht : Same (structureOf s) t) :
    ((linked t).2.iter.map fun p => p.1.addr).Perm s.funcs := by
  rw [Tree.iterA_eq, linked_iterA, ← (ht.iterA (structureOf_keyed s)).1]
  exact (Tree.iterA_perm _).trans (structureOf_addrs s hd)

/-- C140: the order of iteration does not depend on the order of maps. -/
theorem iter_order (s : GoStruct) (t : Tree) (ht : Same (structureOf s) t) :
    ((linked t).2.iter.map fun p => p.1.addr) = ((linked (structureOf s)).2.iter.map fun p => p.1.addr) := by
  rw [Tree.iterA_eq, Tree.iterA_eq, linked_iterA, linked_iterA, ← (ht.iterA (structureOf_keyed s)).1]

theorem runAll_append {σ : Type} (body : Fn × Tree → σ → Bool × σ) (xs ys : List (Fn × Tree)) (s : σ) :
    runAll body (xs ++ ys) s = match runAll body xs s with
      | (false, s) => (false, s)
      | (true, s) => runAll body ys s := by
  induction xs generalizing s with
  | nil => rfl
  | cons x xs ih =>
    simp only [List.cons_append, runAll]
    cases body x s with
    | mk b s' => cases b with
      | false => rfl
      | true => exact ih s'

theorem runSpaces_eq {σ : Type} (body : Fn × Tree → σ → Bool × σ) (l : List (Str × List (Fn × Tree))) (s : σ) :
    runSpaces (l.map fun p => (p.1, [runAll body p.2])) s = runAll body (l.map Prod.snd).flatten s := by
  induction l generalizing s with
  | nil => rfl
  | cons p l ih =>
    simp only [List.map_cons, List.flatten_cons, runSpaces, runAll_append]
    cases runAll body p.2 s with
    | mk b s' => cases b with
      | false => rfl
      | true => exact ih s'

mutual
/-- C140: a loop over the structure that ends early has gone over the functions up to there, and goes over no other. -/
theorem iter_stops {σ : Type} (body : Fn × Tree → σ → Bool × σ) (t : Tree) (s : σ) :
    t.run body s = runAll body t.iter s := by
  match t with
  | .mk fns scs ns =>
    unfold Tree.run Tree.iter
    rw [runAll_append, Spaces.runners_eq body ns]
    simp only [runSpaces_eq]
    generalize runAll body (List.map (fun f => (f, Tree.mk fns scs ns)) fns) s = r
    obtain ⟨b, s'⟩ := r
    cases b <;> rfl
theorem Spaces.runners_eq {σ : Type} (body : Fn × Tree → σ → Bool × σ) (ns : Spaces) :
    ns.runners body = ns.iters.map fun p => (p.1, [runAll body p.2]) := by
  match ns with
  | .nil => rfl
  | .cons name t rest =>
    unfold Spaces.runners Spaces.iters
    rw [Spaces.runners_eq body rest, show t.run body = runAll body t.iter from funext (iter_stops body t)]
    exact insertSpace_map (fun l => [runAll body l]) name t.iter rest.iters
end

/-- `struct { F func(); B struct { G func() }; A struct { H func() `api:"h"` } }`. -/
def struct0 : GoStruct := .mk (.func ['F'] [] 1 (.sub ['B'] (.mk (.func ['G'] [] 2 .nil))
  (.sub ['A'] (.mk (.func ['H'] ['h'] 3 .nil)) .nil)))

example : struct0.Distinct ∧ struct0.funcs = [1, 2, 3] ∧
    (linked (structureOf struct0)).2.iter.map (fun p => p.1.addr) = [1, 3, 2] := by
  refine ⟨?_, by decide, by decide⟩
  simp [struct0, GoStruct.Distinct, Fields.Distinct, Fields.names]

example : Same (structureOf struct0) (.mk [⟨['F'], 1, ⟨0, 0⟩⟩] []
    (.cons ['A'] (.mk [⟨['h'], 3, ⟨0, 0⟩⟩] [] .nil) (.cons ['B'] (.mk [⟨['G'], 2, ⟨0, 0⟩⟩] [] .nil) .nil))) :=
  .mk .swap

/-! ## C141: paths of functions -/

/-- C141 (`_partial`: namespaces that hold two or more namespaces must be at depths at which the slice of their path is
full, which are 0, 1, 2, 4, 8, ...). The path of a function is the names of the namespaces that lead to it, whatever the
order of maps. -/
theorem path_thin_partial (t : Tree) (ht : t.spaces.Thin 1) (loc : List Str) (f : Fn) (u : Tree)
    (h : At (linked t).2 loc f u) (hnil : ∀ f ∈ t.functions, f.path.len = 0) :
    (linked t).1.read f.path = loc := by
  obtain ⟨fns, scs, ns⟩ := t
  cases h with
  | here hm =>
    have := hnil f hm
    unfold Heap.read
    rw [this]
    simp
  | down he ha => exact ((linkTop_ok ns [] ht).2.2 _ _ _ _ _ he ha).1

/-- C141 (`_partial`): if namespaces are nested three deep at most. -/
theorem path_partial (t : Tree) (ht : t.depth ≤ 3) (loc : List Str) (f : Fn) (u : Tree)
    (h : At (linked t).2 loc f u) (hnil : ∀ f ∈ t.functions, f.path.len = 0) :
    (linked t).1.read f.path = loc := by
  refine path_thin_partial t ?_ loc f u h hnil
  obtain ⟨fns, scs, ns⟩ := t
  exact Spaces.thin_of_depth ns 1 (by omega) (by unfold Tree.depth at ht; omega)

theorem fieldsOf_nil (fs : Fields) (fns : List Fn) (scs : List Scenario) (ns : Spaces)
    (h : ∀ f ∈ fns, f.path.len = 0) : ∀ f ∈ (fieldsOf fs fns scs ns).functions, f.path.len = 0 := by
  match fs with
  | .nil => exact h
  | .func name api addr rest =>
    unfold fieldsOf
    refine fieldsOf_nil rest _ _ _ ?_
    intro f hf
    rcases List.mem_append.mp hf with hf | hf
    · exact h f hf
    · rw [List.mem_singleton.mp hf]
  | .register name ss rest => unfold fieldsOf; exact fieldsOf_nil rest _ _ _ h
  | .sub name s rest => unfold fieldsOf; exact fieldsOf_nil rest _ _ _ h
  | .other rest => unfold fieldsOf; exact fieldsOf_nil rest _ _ _ h

/-- The functions of a Go struct itself have the nil path before linking. -/
theorem structureOf_nil (s : GoStruct) : ∀ f ∈ (structureOf s).functions, f.path.len = 0 := by
  obtain ⟨fs⟩ := s
  unfold structureOf
  exact fieldsOf_nil fs [] [] .nil (by simp)

/-- `struct { A struct { B struct { F func() } } }`. -/
def struct1 : GoStruct := .mk (.sub ['A'] (.mk (.sub ['B'] (.mk (.func ['F'] [] 1 .nil)) .nil)) .nil)

example : At (linked (structureOf struct1)).2 [['A'], ['B']] ⟨['F'], 1, ⟨1, 2⟩⟩
      (.mk [⟨['F'], 1, ⟨1, 2⟩⟩] [] .nil) ∧
    (linked (structureOf struct1)).1.read ⟨1, 2⟩ = [['A'], ['B']] :=
  have h : At (linked (structureOf struct1)).2 [['A'], ['B']] ⟨['F'], 1, ⟨1, 2⟩⟩
      (.mk [⟨['F'], 1, ⟨1, 2⟩⟩] [] .nil) := .down .here (.down .here (.here (List.mem_singleton.mpr rfl)))
  ⟨h, path_partial (structureOf struct1) (by decide) _ _ _ h (structureOf_nil _)⟩

/-- C141: the path of every function is the names of the namespaces that lead to it. -/
def PathClaim : Prop :=
  ∀ (s : GoStruct) (t : Tree), Same (structureOf s) t → ∀ (loc : List Str) (f : Fn) (u : Tree),
    At (linked t).2 loc f u → (linked t).1.read f.path = loc

/-- `struct { A struct { B struct { C struct { D struct { F func() }; E struct { G func() } } } } }`. -/
def struct2 : GoStruct := .mk (.sub ['A'] (.mk (.sub ['B'] (.mk (.sub ['C'] (.mk
  (.sub ['D'] (.mk (.func ['F'] [] 1 .nil)) (.sub ['E'] (.mk (.func ['G'] [] 2 .nil)) .nil))) .nil)) .nil)) .nil)

/-- C141 does not hold: two namespaces at the fourth level share the array of their path, so both functions have the
path of the one that was linked last. -/
theorem path_fails : ¬ PathClaim := by
  intro h
  have := h struct2 (structureOf struct2) (.mk (.cons (.mk (.cons (.mk (.cons (.mk (.cons (.mk .nil)
    (.cons (.mk .nil) .nil))) .nil)) .nil)) .nil)) [['A'], ['B'], ['C'], ['D']] ⟨['F'], 1, ⟨2, 4⟩⟩
    (.mk [⟨['F'], 1, ⟨2, 4⟩⟩] [] .nil)
    (.down .here (.down .here (.down .here (.down .here (.here (List.mem_singleton.mpr rfl))))))
  exact absurd this (by decide)

/-- ... and it is the other one whose path is wrong if the map is iterated over in the other order. -/
theorem path_fails_other : ∃ t, Same (structureOf struct2) t ∧ ∃ f u, At (linked t).2 [['A'], ['B'], ['C'], ['E']] f u ∧
    (linked t).1.read f.path = [['A'], ['B'], ['C'], ['D']] := by
  refine ⟨_, .mk (.cons (.mk (.cons (.mk (.cons (.mk .swap) .nil)) .nil)) .nil), ⟨['G'], 2, ⟨2, 4⟩⟩,
    .mk [⟨['G'], 2, ⟨2, 4⟩⟩] [] .nil, ?_, by decide⟩
  exact .down .here (.down .here (.down .here (.down .here (.here (List.mem_singleton.mpr rfl)))))

/-! ## C142: the root of a function -/

mutual
/-- C142: the root that iteration finds for a function is the structure of the namespace it is in. -/
theorem iter_root (t : Tree) (f : Fn) (u : Tree) (h : (f, u) ∈ t.iter) : ∃ loc, At t loc f u := by
  match t with
  | .mk fns scs ns =>
    unfold Tree.iter at h
    rcases List.mem_append.mp h with h | h
    · obtain ⟨f', hf, e⟩ := List.mem_map.mp h
      cases e
      exact ⟨[], .here hf⟩
    · obtain ⟨l, hl, hm⟩ := List.mem_flatten.mp h
      obtain ⟨⟨k, l'⟩, hp, e⟩ := List.mem_map.mp hl
      cases e
      obtain ⟨t', loc, he, ha⟩ := Spaces.iter_root ns k l' hp f u hm
      exact ⟨k :: loc, .down he ha⟩
theorem Spaces.iter_root (ns : Spaces) (k : Str) (l : List (Fn × Tree)) (h : (k, l) ∈ ns.iters) (f : Fn) (u : Tree)
    (hm : (f, u) ∈ l) : ∃ t loc, Entry k t ns ∧ At t loc f u := by
  match ns with
  | .nil => simp [Spaces.iters] at h
  | .cons name t rest =>
    unfold Spaces.iters at h
    rcases List.mem_cons.mp ((insertSpace_perm name t.iter rest.iters).mem_iff.mp h) with e | h
    · obtain ⟨rfl, rfl⟩ := Prod.mk.inj e
      obtain ⟨loc, ha⟩ := Verif.Api.iter_root t f u hm
      exact ⟨t, loc, .here, ha⟩
    · obtain ⟨t', loc, he, ha⟩ := Spaces.iter_root rest k l h f u hm
      exact ⟨t', loc, .there he, ha⟩
end

/-- C142 (`_partial`: for functions that are in no namespace). The root of a function is the structure, and its path is
empty. -/
theorem root_partial (t : Tree) (f : Fn) (h : f ∈ t.functions) (hnil : ∀ f ∈ t.functions, f.path.len = 0) :
    (f, (linked t).2) ∈ (linked t).2.iter ∧ (linked t).1.read f.path = [] := by
  obtain ⟨fns, scs, ns⟩ := t
  refine ⟨?_, ?_⟩
  · unfold linked Tree.iter
    exact List.mem_append_left _ (List.mem_map.mpr ⟨f, h, rfl⟩)
  · unfold Heap.read
    rw [hnil f h]
    simp

/-- C142: the path of a function leads from its root to it. -/
def RootClaim : Prop :=
  ∀ (s : GoStruct) (f : Fn) (u : Tree), (f, u) ∈ (linked (structureOf s)).2.iter →
    ∃ u', At u ((linked (structureOf s)).1.read f.path) f u'

/-- C142 does not hold: the root of a function in a namespace is the structure of that namespace, from which its path
leads nowhere. -/
theorem root_fails : ¬ RootClaim := by
  intro h
  obtain ⟨u', hu⟩ := h (.mk (.sub ['A'] (.mk (.func ['F'] [] 1 .nil)) .nil)) ⟨['F'], 1, ⟨0, 1⟩⟩
    (.mk [⟨['F'], 1, ⟨0, 1⟩⟩] [] .nil) (List.mem_singleton.mpr rfl)
  rw [show (linked (structureOf (.mk (.sub ['A'] (.mk (.func ['F'] [] 1 .nil)) .nil)))).1.read ⟨0, 1⟩ = [['A']]
    from by decide] at hu
  cases hu with
  | down he _ => cases he

/-- C142: an error that is registered in an API decides how a failing function of it is answered, wherever in the API
the function is. -/
def ScenarioClaim : Prop :=
  ∀ (s : GoStruct) (f : Fn) (u : Tree) (sc : Scenario), (f, u) ∈ (linked (structureOf s)).2.iter →
    sc ∈ (structureOf s).scenarios → scenarioFor (f, u) (fun n => n = sc.test) ≠ none

/-- C142 does not hold: a function in a namespace does not know the errors registered beside the namespace. -/
theorem scenario_fails : ¬ ScenarioClaim := by
  intro h
  refine h (.mk (.register ['E'] [⟨['N'], 7⟩] (.sub ['A'] (.mk (.func ['F'] [] 1 .nil)) .nil)))
    ⟨['F'], 1, ⟨1, 1⟩⟩ (.mk [⟨['F'], 1, ⟨1, 1⟩⟩] [] .nil) ⟨['N'], 7⟩ (List.mem_singleton.mpr rfl) ?_ rfl
  exact List.mem_singleton.mpr rfl

/-- C142 (`_partial`: in the namespace of the registration). A failing function is answered by a scenario registered in
its own namespace whose test holds, if there is one. -/
theorem scenario_partial (f : Fn) (u : Tree) (holds : Nat → Bool) (sc : Scenario) (hs : sc ∈ u.scenarios) (hh : holds sc.test = true) :
    ∃ sc', scenarioFor (f, u) holds = some sc' ∧ sc' ∈ u.scenarios ∧ holds sc'.test = true := by
  unfold scenarioFor
  cases e : u.scenarios.find? fun s => holds s.test with
  | none => exact absurd hh (by simpa using List.find?_eq_none.mp e sc hs)
  | some sc' =>
    have h1 := List.find?_some e
    exact ⟨sc', rfl, List.mem_of_find?_eq_some e, h1⟩

end Verif.Api
