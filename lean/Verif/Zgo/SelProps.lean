import Verif.Zgo.SelModel

/-!
# zgo selections: specification and property

* C168 — selecting a promoted field compiles to the path of embedded fields that leads to it.
-/
namespace Verif.Zgo.Sel

/-! ## Specification -/

/-- `types.Selection.Index` "describes the path from x to f": every index but the last is an embedded field
to go through. These are their names. -/
inductive Spec.Leads : Ty → List Nat → List (List Char) → Prop
  | last t i : Leads t [i] []
  | step t i j rest name u names : field t i = some (name, u) → Leads u (j :: rest) names →
      Leads t (i :: j :: rest) (name :: names)

open Spec

/-- The fields of every struct on the way have different names. -/
def Spec.Distinct (t : Ty) : List Nat → Prop
  | [] => True
  | i :: rest => (∀ j k n u v, field t j = some (n, u) → field t k = some (n, v) → j = k) ∧
      ∀ n u, field t i = some (n, u) → Spec.Distinct u rest

/-! ## C168 -/

theorem leads_length {t : Ty} {index : List Nat} {names : List (List Char)} (h : Leads t index names) :
    index.length = names.length + 1 := by
  induction h with
  | last => rfl
  | step t i j rest name u names _ _ ih => simp at ih ⊢; omega

theorem walk_iff {t : Ty} {index : List Nat} {names : List (List Char)} (h : Leads t index names) (hd : Distinct t index)
    (pos : Nat) : walk t pos (index.length - 1) = some names ↔
      ∀ k i, k + 1 < index.length → index[k]? = some i → i = pos + k := by
  induction h generalizing pos with
  | last t i =>
    refine ⟨fun _ k i hk => ?_, fun _ => by simp [walk]⟩
    simp at hk
  | step t i j rest name u names hf hl ih =>
    obtain ⟨hd1, hd2⟩ := hd
    have ih' := ih (hd2 _ _ hf)
    simp only [List.length_cons, Nat.add_sub_cancel] at ih' ⊢
    rw [walk]
    constructor
    · intro h
      cases hp : field t pos with
      | none => simp [hp] at h
      | some x =>
        obtain ⟨n, v⟩ := x
        simp only [hp] at h
        cases hw : walk v (pos + 1) rest.length with
        | none => simp [hw] at h
        | some ns =>
          rw [hw] at h
          simp at h
          obtain ⟨rfl, rfl⟩ := h
          have hi : i = pos := hd1 _ _ _ _ _ hf hp
          subst hi
          rw [hf] at hp
          injection hp with hp
          injection hp with _ hp
          subst hp
          have := (ih' (i + 1)).1 hw
          intro k m hk hm
          cases k with
          | zero => simp at hm; omega
          | succ k =>
            simp only [List.getElem?_cons_succ] at hm
            have := this k m (by omega) hm
            omega
    · intro h
      have hi : i = pos := by simpa using h 0 i (by omega) rfl
      subst hi
      simp only [hf]
      have := (ih' (i + 1)).2 (by
        intro k m hk hm
        have := h (k + 1) m (by omega) (by simpa using hm)
        omega)
      rw [this]; rfl

/-- C168, exactly when it holds: the path that is compiled is the path to the promoted field if and only if
each embedded field on the way is at the position that equals its depth: the first in the outer struct, the
second in the next, and so on. -/
theorem promoted_field_iff (t : Ty) (index : List Nat) (names : List (List Char)) (h : Leads t index names)
    (hd : Distinct t index) :
    loadPath t index = some names ↔ ∀ k i, k + 1 < index.length → index[k]? = some i → i = k := by
  have hlen := leads_length h
  unfold loadPath
  by_cases h1 : index.length > 1
  · rw [if_pos h1, walk_iff h hd 0]
    simp
  · rw [if_neg h1]
    have : names = [] := by
      cases names with
      | nil => rfl
      | cons => simp at hlen; omega
    subst this
    simp only [true_iff]
    intro k i hk; omega

/-- C168, the part that holds: fields of the struct itself, and fields promoted through the first field of
the struct. -/
theorem promoted_field_partial (t : Ty) (i j : Nat) (names : List (List Char)) :
    (Leads t [i] names → loadPath t [i] = some names) ∧
    (Leads t [0, j] names → loadPath t [0, j] = some names) := by
  constructor
  · intro h; cases h; rfl
  · intro h
    cases h with
    | step t i j rest name u names hf hl =>
      cases hl
      simp [loadPath, walk, hf]

/-- `struct { A; B }` with `A struct { x int }`, `B struct { y int }`. -/
def embedsTwo : Ty :=
  .struct [(['A'], .struct [(['x'], .other)]), (['B'], .pointer (.struct [(['y'], .other)]))]

example : Leads embedsTwo [0, 0] [['A']] ∧ loadPath embedsTwo [0, 0] = some [['A']] :=
  ⟨.step _ _ _ _ _ _ _ rfl (.last _ _), rfl⟩

/-- C168, the full statement. -/
def PromotedFields : Prop :=
  ∀ (t : Ty) (index : List Nat) (names : List (List Char)), Leads t index names → Distinct t index →
    loadPath t index = some names

theorem embedsTwo_distinct : Distinct embedsTwo [1, 0] := by
  have hA : ∀ j n u, field embedsTwo j = some (n, u) → (j = 0 ∧ n = ['A']) ∨ (j = 1 ∧ n = ['B'] ∧
      u = .pointer (.struct [(['y'], .other)])) := by
    intro j n u h
    match j with
    | 0 => simp [field, embedsTwo, deref] at h; exact Or.inl ⟨rfl, h.1.symm⟩
    | 1 => simp [field, embedsTwo, deref] at h; exact Or.inr ⟨rfl, h.1.symm, h.2.symm⟩
    | j + 2 => simp [field, embedsTwo, deref] at h
  refine ⟨?_, ?_⟩
  · intro j k n u v h1 h2
    rcases hA _ _ _ h1 with ⟨rfl, rfl⟩ | ⟨rfl, rfl, _⟩ <;> rcases hA _ _ _ h2 with ⟨rfl, h⟩ | ⟨rfl, h, _⟩ <;> simp_all
  · intro n u h
    rcases hA _ _ _ h with ⟨h0, _⟩ | ⟨_, _, rfl⟩
    · cases h0
    · refine ⟨?_, fun _ _ _ => trivial⟩
      intro j k n u v h1 h2
      match j, k with
      | 0, 0 => rfl
      | 0, k + 1 => simp [field, deref] at h2
      | j + 1, _ => simp [field, deref] at h1

/-- C168 fails: a field promoted through the second embedded struct is looked for in the first. -/
theorem promoted_field_fails :
    Leads embedsTwo [1, 0] [['B']] ∧ Distinct embedsTwo [1, 0] ∧ loadPath embedsTwo [1, 0] = some [['A']] :=
  ⟨.step _ _ _ _ _ _ _ rfl (.last _ _), embedsTwo_distinct, rfl⟩

theorem promoted_fields_fails : ¬ PromotedFields := by
  intro h
  have := h _ _ _ promoted_field_fails.1 promoted_field_fails.2.1
  rw [promoted_field_fails.2.2] at this
  simp at this

end Verif.Zgo.Sel
