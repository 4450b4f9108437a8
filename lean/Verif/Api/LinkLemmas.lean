import Verif.Api.StructSpec
/-! Lemmas about the paths of functions. -/
namespace Verif.Api

theorem grow_gt {n : Nat} (h : 1 ≤ n) : n < grow n := by
  unfold grow; split <;> omega

theorem capAt_ge (n : Nat) : n ≤ capAt n := by
  match n with
  | 0 => simp [capAt]
  | 1 => simp [capAt]
  | n + 2 =>
    unfold capAt
    split
    · omega
    · have := grow_gt (n := n + 1) (by omega)
      omega

theorem capAt_full {n : Nat} (h1 : 1 ≤ n) (h : ¬ n < capAt n) : capAt (n + 1) = grow n := by
  match n, h1 with
  | n + 1, _ => rw [capAt, if_neg h]

theorem capAt_room {n : Nat} (h1 : 1 ≤ n) (h : n < capAt n) : capAt (n + 1) = capAt n := by
  match n, h1 with
  | n + 1, _ => rw [capAt, if_pos h]

/-- A slice that was appended to one by one, with its elements. -/
structure Good (h : Heap) (p : Slice) (loc : List Str) : Prop where
  pos : 1 ≤ p.len
  arr : ∃ a, h[p.arr]? = some a ∧ a.length = capAt p.len ∧ a.take p.len = loc

theorem Good.read {h : Heap} {p : Slice} {loc : List Str} (g : Good h p loc) : h.read p = loc := by
  obtain ⟨a, e, -, t⟩ := g.arr
  unfold Heap.read
  rw [e]
  exact t

theorem Good.lt {h : Heap} {p : Slice} {loc : List Str} (g : Good h p loc) : p.arr < h.length := by
  obtain ⟨a, e, -, -⟩ := g.arr
  exact (List.getElem?_eq_some_iff.mp e).1

/-- What linking with a path leaves as it was. -/
structure Keeps (h h' : Heap) (p : Slice) : Prop where
  grows : h.length ≤ h'.length
  others : ∀ i, i < h.length → i ≠ p.arr → h'[i]? = h[i]?
  prefixes : ∀ a, h[p.arr]? = some a → ∃ a', h'[p.arr]? = some a' ∧ a'.length = a.length ∧
    a'.take p.len = a.take p.len
  full : ¬ p.len < capAt p.len → h'[p.arr]? = h[p.arr]?

theorem Keeps.refl (h : Heap) (p : Slice) : Keeps h h p :=
  ⟨Nat.le_refl _, fun _ _ _ => rfl, fun a e => ⟨a, e, rfl, rfl⟩, fun _ => rfl⟩

/-- The functions found under a path. -/
def Found (h' : Heap) (low : Nat) (p : Slice) (loc : List Str) (f : Fn) : Prop :=
  h'.read f.path = loc ∧ (f.path.arr = p.arr ∨ low ≤ f.path.arr) ∧ f.path.arr < h'.length

theorem append_full {h : Heap} {p : Slice} {loc : List Str} (g : Good h p loc) (hf : ¬ p.len < capAt p.len)
    (name : Str) : ∃ new, h.append p name = (h ++ [new], ⟨h.length, p.len + 1⟩) ∧
      Good (h ++ [new]) ⟨h.length, p.len + 1⟩ (loc ++ [name]) := by
  obtain ⟨a, e, hl, ht⟩ := g.arr
  have hla : a.length = p.len := by have := capAt_ge p.len; omega
  refine ⟨a.take p.len ++ name :: List.replicate (grow p.len - p.len - 1) [], ?_, ?_⟩
  · unfold Heap.append
    rw [e]
    simp only [Option.getD_some]
    rw [if_neg (by omega)]
  · refine ⟨by simp, a.take p.len ++ name :: List.replicate (grow p.len - p.len - 1) [], by simp, ?_, ?_⟩
    · have := grow_gt g.pos
      simp only [List.length_append, List.length_cons, List.length_replicate, List.length_take]
      rw [capAt_full g.pos hf]
      omega
    · rw [← ht]
      have : p.len = (a.take p.len).length := by simp [hla]
      rw [show a.take p.len ++ name :: List.replicate (grow p.len - p.len - 1) [] =
        (a.take p.len ++ [name]) ++ List.replicate (grow p.len - p.len - 1) [] from by simp]
      rw [List.take_left' (by simp [hla])]

theorem append_room {h : Heap} {p : Slice} {loc : List Str} (g : Good h p loc) (hf : p.len < capAt p.len)
    (name : Str) : ∃ a, h[p.arr]? = some a ∧
      h.append p name = (h.set p.arr (a.set p.len name), ⟨p.arr, p.len + 1⟩) ∧
      Good (h.set p.arr (a.set p.len name)) ⟨p.arr, p.len + 1⟩ (loc ++ [name]) := by
  obtain ⟨a, e, hl, ht⟩ := g.arr
  refine ⟨a, e, ?_, ?_⟩
  · unfold Heap.append
    rw [e]
    simp only [Option.getD_some]
    rw [if_pos (by omega)]
  · refine ⟨by simp, a.set p.len name, ?_, ?_, ?_⟩
    · have := g.lt
      simp [this]
    · rw [List.length_set, hl, capAt_room g.pos hf]
    · rw [← ht]
      have hlt : p.len < a.length := by omega
      dsimp only
      rw [List.take_succ]
      rw [List.getElem?_set_self hlt]
      simp [List.take_set_of_le]

mutual
theorem Tree.link_ok (t : Tree) (h : Heap) (p : Slice) (loc : List Str) (g : Good h p loc) (ht : t.Thin p.len) :
    Keeps h (t.link h p).1 p ∧
      ∀ l f u, At (t.link h p).2 l f u → Found (t.link h p).1 h.length p (loc ++ l) f := by
  match t with
  | .mk fns scs ns =>
    unfold Tree.Thin at ht
    obtain ⟨hk, hfd⟩ := Spaces.link_ok ns h p loc g ht.1 ht.2
    unfold Tree.link
    refine ⟨hk, ?_⟩
    intro l f u hat
    cases hat with
    | here hm =>
      obtain ⟨f0, -, rfl⟩ := List.mem_map.mp hm
      obtain ⟨a, e, -, t'⟩ := g.arr
      obtain ⟨a', e', -, t''⟩ := hk.prefixes a e
      refine ⟨?_, Or.inl rfl, Nat.lt_of_lt_of_le g.lt hk.grows⟩
      unfold Heap.read
      dsimp only
      rw [e', Option.getD_some, t'', t', List.append_nil]
    | down he ha => exact hfd _ _ _ _ _ he ha
theorem Spaces.link_ok (ns : Spaces) (h : Heap) (p : Slice) (loc : List Str) (g : Good h p loc)
    (hs : p.len < capAt p.len → ns.size ≤ 1) (ht : ns.Thin (p.len + 1)) :
    Keeps h (ns.link h p).1 p ∧
      ∀ name t l f u, Entry name t (ns.link h p).2 → At t l f u →
        Found (ns.link h p).1 h.length p (loc ++ name :: l) f := by
  match ns with
  | .nil =>
    refine ⟨Keeps.refl h p, ?_⟩
    intro name t l f u he
    cases he
  | .cons name t rest =>
    unfold Spaces.Thin at ht
    by_cases hroom : p.len < capAt p.len
    · -- one child, in the same array
      have hrest : rest = .nil := by
        have := hs hroom
        cases rest with
        | nil => rfl
        | cons _ _ _ => simp [Spaces.size] at this
      subst hrest
      obtain ⟨a, e, hap, g1⟩ := append_room g hroom name
      unfold Spaces.link
      rw [hap]
      dsimp only
      obtain ⟨hk, hf⟩ := Tree.link_ok t _ _ _ g1 ht.1
      unfold Spaces.link
      dsimp only
      refine ⟨⟨?_, ?_, ?_, fun h' => absurd hroom h'⟩, ?_⟩
      · have := hk.grows; rw [List.length_set] at this; exact this
      · intro i hi hne
        rw [hk.others i (by rw [List.length_set]; exact hi) hne]
        exact List.getElem?_set_ne (Ne.symm hne)
      · intro a' e'
        rw [e] at e'
        cases e'
        have hlt := g.lt
        obtain ⟨b, eb, hbl, hbt⟩ := hk.prefixes (a.set p.len name) (by simp [hlt])
        refine ⟨b, eb, by rw [hbl, List.length_set], ?_⟩
        have := congrArg (List.take p.len) hbt
        rw [List.take_take, List.take_take] at this
        dsimp only at this
        rw [Nat.min_eq_left (by omega)] at this
        rw [this]
        simp [List.take_set_of_le]
      · intro name' t' l f u he ha
        cases he with
        | here =>
          obtain ⟨r, o, q⟩ := hf _ _ _ ha
          refine ⟨?_, ?_, q⟩
          · rw [r, List.append_assoc]; rfl
          · rw [List.length_set] at o; exact o
        | there he => cases he
    · -- each child in a new array
      obtain ⟨new, hap, g1⟩ := append_full g hroom name
      unfold Spaces.link
      rw [hap]
      dsimp only
      obtain ⟨hk, hf⟩ := Tree.link_ok t _ _ _ g1 ht.1
      -- what was there is still there
      have hold : ∀ i, i < h.length → (t.link (h ++ [new]) ⟨h.length, p.len + 1⟩).1[i]? = h[i]? := by
        intro i hi
        rw [hk.others i (by simp; omega) (by dsimp only; omega)]
        exact List.getElem?_append_left hi
      have g2 : Good (t.link (h ++ [new]) ⟨h.length, p.len + 1⟩).1 p loc := by
        refine ⟨g.pos, ?_⟩
        rw [hold _ g.lt]
        exact g.arr
      have hgrow : h.length < (t.link (h ++ [new]) ⟨h.length, p.len + 1⟩).1.length := by
        have := hk.grows
        simp at this
        omega
      obtain ⟨hk2, hf2⟩ := Spaces.link_ok rest _ p loc g2 (fun h' => absurd h' hroom) ht.2
      generalize hh2 : (t.link (h ++ [new]) ⟨h.length, p.len + 1⟩).1 = h2 at *
      have hkeep : ∀ i, i < h2.length → (rest.link h2 p).1[i]? = h2[i]? := by
        intro i hi
        by_cases hip : i = p.arr
        · rw [hip]; exact hk2.full hroom
        · exact hk2.others i hi hip
      refine ⟨⟨?_, ?_, ?_, ?_⟩, ?_⟩
      · have := hk2.grows; omega
      · intro i hi _
        rw [hkeep i (by omega), hold i hi]
      · intro a e
        refine ⟨a, ?_, rfl, rfl⟩
        rw [hkeep _ (by have := g.lt; omega), hold _ g.lt, e]
      · intro _
        rw [hkeep _ (by have := g.lt; omega), hold _ g.lt]
      · intro name' t' l f u he ha
        cases he with
        | here =>
          obtain ⟨r, o, q⟩ := hf _ _ _ ha
          refine ⟨?_, Or.inr ?_, ?_⟩
          · have : (rest.link h2 p).1.read f.path = h2.read f.path := by
              unfold Heap.read
              rw [hkeep _ q]
            rw [this, r, List.append_assoc]; rfl
          · rcases o with o | o
            · rw [o]; exact Nat.le_refl _
            · simp at o; omega
          · have := hk2.grows; omega
        | there he =>
          obtain ⟨r, o, q⟩ := hf2 _ _ _ _ _ he ha
          refine ⟨r, ?_, q⟩
          rcases o with o | o
          · exact Or.inl o
          · exact Or.inr (by omega)
end

theorem linkTop_ok (ns : Spaces) (h : Heap) (ht : ns.Thin 1) :
    (∀ i, i < h.length → (linkTop h ns).1[i]? = h[i]?) ∧ h.length ≤ (linkTop h ns).1.length ∧
      ∀ name t l f u, Entry name t (linkTop h ns).2 → At t l f u →
        (linkTop h ns).1.read f.path = name :: l ∧ f.path.arr < (linkTop h ns).1.length := by
  induction ns using Spaces.rec (motive_1 := fun _ => True) generalizing h with
  | mk => trivial
  | nil =>
    refine ⟨fun _ _ => rfl, Nat.le_refl _, ?_⟩
    intro name t l f u he
    cases he
  | cons name t rest _ ih =>
    unfold Spaces.Thin at ht
    have g1 : Good (h ++ [[name]]) ⟨h.length, 1⟩ [name] :=
      ⟨by simp, [name], by simp, rfl, rfl⟩
    obtain ⟨hk, hf⟩ := Tree.link_ok t _ _ _ g1 ht.1
    unfold linkTop
    dsimp only
    have hold : ∀ i, i < h.length → (t.link (h ++ [[name]]) ⟨h.length, 1⟩).1[i]? = h[i]? := by
      intro i hi
      rw [hk.others i (by simp; omega) (by dsimp only; omega)]
      exact List.getElem?_append_left hi
    have hgrow : h.length < (t.link (h ++ [[name]]) ⟨h.length, 1⟩).1.length := by
      have := hk.grows
      simp at this
      omega
    obtain ⟨i1, i2, i3⟩ := ih (t.link (h ++ [[name]]) ⟨h.length, 1⟩).1 ht.2
    refine ⟨?_, by omega, ?_⟩
    · intro i hi
      rw [i1 i (by omega), hold i hi]
    · intro name' t' l f u he ha
      cases he with
      | here =>
        obtain ⟨r, o, q⟩ := hf _ _ _ ha
        refine ⟨?_, by omega⟩
        have : (linkTop (t.link (h ++ [[name]]) ⟨h.length, 1⟩).1 rest).1.read f.path =
            (t.link (h ++ [[name]]) ⟨h.length, 1⟩).1.read f.path := by
          unfold Heap.read
          rw [i1 _ q]
        rw [this, r]; rfl
      | there he => exact i3 _ _ _ _ _ he ha

mutual
theorem Tree.thin_of_depth (t : Tree) (d : Nat) (h1 : 1 ≤ d) (h : t.depth + d ≤ 3) : t.Thin d := by
  match t with
  | .mk fns scs ns =>
    unfold Tree.Thin
    unfold Tree.depth at h
    refine ⟨?_, Spaces.thin_of_depth ns (d + 1) (by omega) (by omega)⟩
    intro hc
    have : d = 3 := by
      match d, h1 with
      | 1, _ => exact absurd hc (by decide)
      | 2, _ => exact absurd hc (by decide)
      | 3, _ => rfl
      | d + 4, _ => omega
    cases ns with
    | nil => simp [Spaces.size]
    | cons _ _ _ => unfold Spaces.depth at h; omega
theorem Spaces.thin_of_depth (ns : Spaces) (d : Nat) (h1 : 1 ≤ d) (h : ns.depth + d ≤ 4) : ns.Thin d := by
  match ns with
  | .nil => trivial
  | .cons _ t r =>
    unfold Spaces.Thin
    unfold Spaces.depth at h
    exact ⟨Tree.thin_of_depth t d h1 (by omega), Spaces.thin_of_depth r d h1 (by omega)⟩
end

end Verif.Api
