import Verif.Rest.ParseProps
import Verif.Rest.WalkSpec
import Mathlib.Data.List.Forall2
/-!
Lemmas about destructuring: the frame of `walk` and the paths it visits.
-/
namespace Verif.Rest
open Spec

/-- The capacity of the array behind an index of that length. -/
def capOf : Nat → Nat
  | 0 => 0
  | n + 1 => if n < capOf n then capOf n else max (grow n) (n + 1)

/-- An index slice that reads a path and has the expected capacity. -/
structure Good (h : Heap) (s : Slice) (path : List Nat) : Prop where
  len : s.len = path.length
  arr : ∃ a, h[s.arr]? = some a ∧ a.length = capOf s.len ∧ a.take s.len = path

theorem Good.lt {h : Heap} {s : Slice} {path : List Nat} (g : Good h s path) : s.arr < h.length := by
  obtain ⟨a, ha, _⟩ := g.arr
  exact (List.getElem?_eq_some_iff.mp ha).1

theorem Good.read {h : Heap} {s : Slice} {path : List Nat} (g : Good h s path) : h.read s = path := by
  obtain ⟨a, ha, _, ht⟩ := g.arr
  simp [Heap.read, ha, ht]

/-- Changes of the heap that keep what a slice reads, and all other old arrays. -/
structure Frame (h h' : Heap) (s : Slice) : Prop where
  grows : h.length ≤ h'.length
  same : ∀ a, a < h.length → a ≠ s.arr → h'[a]? = h[a]?
  own : ∀ a, h[s.arr]? = some a → ∃ a', h'[s.arr]? = some a' ∧ a'.length = a.length ∧
    a'.take s.len = a.take s.len

theorem Frame.refl (h : Heap) (s : Slice) : Frame h h s :=
  ⟨Nat.le_refl _, fun _ _ _ => rfl, fun a ha => ⟨a, ha, rfl, rfl⟩⟩

theorem Frame.trans {h1 h2 h3 : Heap} {s : Slice} (a : Frame h1 h2 s) (b : Frame h2 h3 s) :
    Frame h1 h3 s := by
  refine ⟨Nat.le_trans a.grows b.grows, ?_, ?_⟩
  · intro x hx hne
    rw [b.same x (Nat.lt_of_lt_of_le hx a.grows) hne, a.same x hx hne]
  · intro x hx
    obtain ⟨x', h1, h2, h3⟩ := a.own x hx
    obtain ⟨x'', h4, h5, h6⟩ := b.own x' h1
    exact ⟨x'', h4, by omega, by rw [h6, h3]⟩

theorem Good.frame {h h' : Heap} {s : Slice} {path : List Nat} (g : Good h s path)
    (f : Frame h h' s) : Good h' s path := by
  obtain ⟨a, h1, h2, h3⟩ := g.arr
  obtain ⟨a', h4, h5, h6⟩ := f.own a h1
  exact ⟨g.len, a', h4, by rw [h5, h2], by rw [h6, h3]⟩

/-- Appending to an index: the new slice reads the longer path, nothing else old changes but
the unread part of the array, and if the old slice was full the new one has its own array. -/
theorem append_good {h : Heap} {s : Slice} {path : List Nat} (g : Good h s path) (i : Nat) :
    Good (h.append s i).1 (h.append s i).2 (path ++ [i]) ∧ Frame h (h.append s i).1 s ∧
      ((h.append s i).2.arr = s.arr ∧ (h.append s i).1.length = h.length ∨
        (h.append s i).2.arr = h.length) ∧
      (¬ s.len < capOf s.len → (h.append s i).2.arr = h.length) := by
  obtain ⟨a, ha, hl, ht⟩ := g.arr
  have hlt := g.lt
  have hlen := g.len
  unfold Heap.append
  simp only [ha, Option.getD_some, hl]
  by_cases hroom : s.len < capOf s.len
  · rw [if_pos hroom]
    have hal : s.len < a.length := by omega
    refine ⟨⟨by simp [hlen], ?_⟩, ⟨by simp, ?_, ?_⟩, Or.inl ⟨rfl, by simp⟩, fun h => absurd hroom h⟩
    · refine ⟨a.set s.len i, by simp [hlt], ?_, ?_⟩
      · simp only [List.length_set, capOf, if_pos hroom, hl]
      · rw [List.take_add_one, List.getElem?_set_self hal, List.take_set_of_le (Nat.le_refl _), ht]
        rfl
    · intro x hx hne
      simp only
      rw [List.getElem?_set_ne (fun e => hne e.symm)]
    · intro b hb
      rw [ha] at hb; injection hb with hb; subst hb
      exact ⟨a.set s.len i, by simp [hlt], by simp, by rw [List.take_set_of_le (Nat.le_refl _)]⟩
  · rw [if_neg hroom]
    have hpl : (a.take s.len).length = s.len := by rw [ht, hlen]
    refine ⟨⟨by simp [hlen], ?_⟩, ⟨by simp, ?_, ?_⟩, Or.inr rfl, fun _ => rfl⟩
    · refine ⟨a.take s.len ++ i :: List.replicate (grow s.len - s.len - 1) 0, by simp, ?_, ?_⟩
      · simp only [List.length_append, hpl, List.length_cons, List.length_replicate, capOf, if_neg hroom]
        omega
      · simp only
        rw [List.take_append, hpl, List.take_of_length_le (by omega), ht]
        simp
    · intro x hx hne
      simp only
      rw [List.getElem?_append_left hx]
    · intro b hb
      exact ⟨b, by simp only; rw [List.getElem?_append_left hlt]; exact hb, rfl, rfl⟩

/-! ## Paths and names -/

/-- Names joined with dots. -/
def joinDots (ns : List Str) : Str := (ns.intersperse ['.']).flatten

/-- The names on a chain that show. -/
def visible (cs : List FieldInfo) : List Str :=
  (cs.dropLast.filter (fun f => !f.anonymous) ++ cs.getLast?.toList).map ownName

mutual
/-- Paths to the parameters of a field at position `i`. -/
def pathsTy (t : Ty) (text : Bool) (i : Nat) : List (List Nat) :=
  match t with
  | .ptr t => pathsTy t text i
  | .scalar _ => [[i]]
  | .struct _ fs => if text then [[i]] else (pathsFields fs 0).map (i :: ·)
/-- Paths to the parameters of the fields from position `i`. -/
def pathsFields (fs : Fields) (i : Nat) : List (List Nat) :=
  match fs with
  | .nil => []
  | .cons f t rest =>
    if ¬ f.exported then pathsFields rest (i + 1)
    else pathsTy t t.isText i ++ pathsFields rest (i + 1)
end

theorem dotted_eq (cs : List FieldInfo) : dotted cs = joinDots (visible cs) := rfl

theorem joinDots_snoc (ns : List Str) (h : ns ≠ []) (x : Str) :
    joinDots (ns ++ [x]) = joinDots ns ++ '.' :: x := by
  induction ns with
  | nil => exact absurd rfl h
  | cons a ns ih =>
    cases ns with
    | nil => simp [joinDots]
    | cons b ns =>
      have := ih (by simp)
      simp only [joinDots, List.cons_append, List.intersperse_cons₂, List.flatten_cons] at this ⊢
      rw [this]
      simp

theorem joinDots_ne_nil (ns : List Str) (h : ns ≠ []) (hn : ∀ n ∈ ns, n ≠ []) : joinDots ns ≠ [] := by
  cases ns with
  | nil => exact absurd rfl h
  | cons a ns =>
    have := hn a (by simp)
    cases ns with
    | nil => simpa [joinDots] using this
    | cons b ns => simp [joinDots, this]

theorem cut_takeWhile (s : Str) : (cut ',' s).1 = s.takeWhile (· ≠ ',') := by
  induction s with
  | nil => rfl
  | cons c s ih =>
    rw [cut]
    by_cases h : c = ','
    · simp [h]
    · rw [if_neg h, List.takeWhile_cons, if_pos (by simpa using h)]
      simp [ih]

theorem ownName_ne_nil (f : FieldInfo) (h : f.name ≠ []) : ownName f ≠ [] := by
  unfold ownName
  split
  · assumption
  · split
    · assumption
    · exact h

theorem fieldParamName_eq (f : FieldInfo) (hf : f.name ≠ []) (ns : List Str) (hn : ∀ n ∈ ns, n ≠ []) :
    fieldParamName f (joinDots ns) = joinDots (ns ++ [ownName f]) := by
  have own : (if (if f.restTag ≠ [] then f.restTag else (cut ',' f.jsonTag).1) = [] then f.name
      else (if f.restTag ≠ [] then f.restTag else (cut ',' f.jsonTag).1)) = ownName f := by
    rw [cut_takeWhile]
    unfold ownName
    by_cases h1 : f.restTag = []
    · simp only [h1, ne_eq, not_true, if_false]
      by_cases h2 : f.jsonTag.takeWhile (· ≠ ',') = []
      · simp [h2]
      · simp [h2]
    · simp [h1]
  unfold fieldParamName
  simp only [own]
  by_cases h : ns = []
  · subst h; simp [joinDots]
  · rw [if_pos (joinDots_ne_nil ns h hn), joinDots_snoc ns h]

/-! ## Walking -/

/-- A parameter stands for a path below a struct with these fields. -/
structure Stands (full : Fields) (ns : List Str) (base : List Nat) (low : Nat) (h : Heap)
    (pm : Param) (π : List Nat) : Prop where
  leads : ∃ cs t, chain full π = some (cs, t) ∧ pm.name = joinDots (ns ++ visible cs) ∧
    pm.ty = some (behind t)
  query : pm.loc = .at false true
  bound : pm.index.arr < h.length
  reads : ¬ (base.length + π.length - 1) < capOf (base.length + π.length - 1) →
    h.read pm.index = base ++ π ∧ low ≤ pm.index.arr

theorem Stands.frame {full : Fields} {ns : List Str} {base : List Nat} {low : Nat} {h h' : Heap}
    {pm : Param} {π : List Nat} {s : Slice} (st : Stands full ns base low h pm π)
    (f : Frame h h' s) (hs : s.arr < low) : Stands full ns base low h' pm π := by
  refine ⟨st.leads, st.query, Nat.lt_of_lt_of_le st.bound f.grows, ?_⟩
  intro hfull
  obtain ⟨h1, h2⟩ := st.reads hfull
  refine ⟨?_, h2⟩
  rw [← h1]
  simp only [Heap.read]
  rw [f.same _ st.bound (by omega)]

theorem chain_down {full fs : Fields} {i : Nat} {f : FieldInfo} {t : Ty} {π : List Nat}
    {cs : List FieldInfo} {t' : Ty} (h1 : fieldAt full i = some (f, t)) (h2 : fieldsOf t = some fs)
    (h3 : chain fs π = some (cs, t')) : chain full (i :: π) = some (f :: cs, t') ∧ cs ≠ [] := by
  cases π with
  | nil => simp [chain] at h3
  | cons j π =>
    refine ⟨?_, ?_⟩
    · simp only [chain, h1, h2, h3, Option.map_some]
    · cases π with
      | nil =>
        rw [chain] at h3
        cases hf : fieldAt fs j with
        | none => rw [hf] at h3; simp at h3
        | some x => rw [hf] at h3; simp at h3; rw [← h3.1]; simp
      | cons k π =>
        rw [chain] at h3
        split at h3
        · simp at h3
        · split at h3
          · simp at h3
          · simp at h3
            obtain ⟨a, _, _⟩ := h3
            rintro rfl
            simp_all

theorem visible_cons (f : FieldInfo) (cs : List FieldInfo) (h : cs ≠ []) :
    visible (f :: cs) = if f.anonymous then visible cs else ownName f :: visible cs := by
  obtain ⟨c, cs', rfl⟩ := List.exists_cons_of_ne_nil h
  unfold visible
  rw [List.dropLast_cons_cons, List.filter_cons, List.getLast?_cons_cons]
  cases f.anonymous <;> simp

theorem Frame.inner {h h2 h3 : Heap} {s s' : Slice} (a : Frame h h2 s) (b : Frame h2 h3 s')
    (hs : s.arr < h.length) (hlen : s.len ≤ s'.len) (hor : s'.arr = s.arr ∨ s'.arr = h.length) :
    Frame h h3 s := by
  refine ⟨Nat.le_trans a.grows b.grows, ?_, ?_⟩
  · intro x hx hne
    rw [b.same x (Nat.lt_of_lt_of_le hx a.grows) (by rcases hor with e | e <;> omega), a.same x hx hne]
  · intro x hx
    obtain ⟨x', h1, h2, h3'⟩ := a.own x hx
    rcases hor with e | e
    · rw [← e] at h1
      obtain ⟨x'', h4, h5, h6⟩ := b.own x' h1
      refine ⟨x'', by rw [← e]; exact h4, by omega, ?_⟩
      rw [← h3']
      have := congrArg (List.take s.len) h6
      rwa [List.take_take, List.take_take, Nat.min_eq_left hlen] at this
    · refine ⟨x', ?_, h2, h3'⟩
      rw [b.same s.arr (Nat.lt_of_lt_of_le hs a.grows) (by omega)]
      exact h1

theorem leaf_spec (p : Parser) (t t0 : Ty) (f : FieldInfo) (full : Fields) (ns : List Str)
    (base : List Nat) (s : Slice) (i : Nat) (hg : Good p.heap s base) (hbase : base ≠ [])
    (hat : fieldAt full i = some (f, t0)) (hb : behind t0 = t)
    (hname : f.name ≠ []) (hns : ∀ n ∈ ns, n ≠ []) :
    ∃ new, (p.addLeaf (fieldParamName f (joinDots ns)) t s i).list = p.list ++ new ∧
      (p.addLeaf (fieldParamName f (joinDots ns)) t s i).pos = p.pos ∧
      (p.addLeaf (fieldParamName f (joinDots ns)) t s i).static = p.static ∧
      Frame p.heap (p.addLeaf (fieldParamName f (joinDots ns)) t s i).heap s ∧
      List.Forall₂ (Stands full ns base p.heap.length
        (p.addLeaf (fieldParamName f (joinDots ns)) t s i).heap) new [[i]] := by
  obtain ⟨g1, g2, g3, g4⟩ := append_good hg i
  refine ⟨_, rfl, rfl, rfl, g2, .cons ⟨⟨[f], t0, ?_, ?_, ?_⟩, rfl, g1.lt, ?_⟩ .nil⟩
  · simp [chain, hat]
  · simp only [fieldParamName_eq f hname ns hns]
    rfl
  · simp [hb]
  · intro hfull
    refine ⟨g1.read, ?_⟩
    exact Nat.le_of_eq (g4 (by rw [hg.len]; simpa using hfull)).symm

mutual
theorem walkTy_spec (p : Parser) (t t0 : Ty) (f : FieldInfo) (full : Fields) (ns : List Str)
    (base : List Nat) (s : Slice) (i : Nat) (hg : Good p.heap s base) (hbase : base ≠ [])
    (hat : fieldAt full i = some (f, t0)) (hb : behind t0 = behind t) (hfo : fieldsOf t0 = fieldsOf t)
    (hname : f.name ≠ []) (hns : ∀ n ∈ ns, n ≠ []) (hnamed : TyNamed t) :
    ∃ new, (p.walkTy t t0.isText f.anonymous (fieldParamName f (joinDots ns)) (joinDots ns) s i).list =
        p.list ++ new ∧
      (p.walkTy t t0.isText f.anonymous (fieldParamName f (joinDots ns)) (joinDots ns) s i).pos = p.pos ∧
      (p.walkTy t t0.isText f.anonymous (fieldParamName f (joinDots ns)) (joinDots ns) s i).static = p.static ∧
      Frame p.heap (p.walkTy t t0.isText f.anonymous (fieldParamName f (joinDots ns)) (joinDots ns) s i).heap s ∧
      List.Forall₂ (Stands full ns base p.heap.length
        (p.walkTy t t0.isText f.anonymous (fieldParamName f (joinDots ns)) (joinDots ns) s i).heap) new
        (pathsTy t t0.isText i) := by
  match t with
  | .ptr t =>
    simp only [Parser.walkTy, pathsTy]
    exact walkTy_spec p t t0 f full ns base s i hg hbase hat hb hfo hname hns hnamed
  | .scalar b =>
    simp only [Parser.walkTy, pathsTy]
    exact leaf_spec p (.scalar b) t0 f full ns base s i hg hbase hat hb hname hns
  | .struct b fs =>
    simp only [Parser.walkTy, pathsTy]
    by_cases ht : t0.isText = true
    · simp only [ht, if_true]
      exact leaf_spec p (.struct b fs) t0 f full ns base s i hg hbase hat hb hname hns
    · rw [Bool.not_eq_true] at ht
      simp only [ht, Bool.false_eq_true, if_false]
      obtain ⟨g1, g2, g3, g4⟩ := append_good hg i
      have hpar : (if f.anonymous then joinDots ns else fieldParamName f (joinDots ns)) =
          joinDots (if f.anonymous then ns else ns ++ [ownName f]) := by
        rw [fieldParamName_eq f hname ns hns]; split <;> rfl
      simp only [hpar]
      obtain ⟨new, h1, h2, h3, h4, h5⟩ := walkFields_spec { p with heap := (p.heap.append s i).1 } fs fs 0
        (if f.anonymous then ns else ns ++ [ownName f]) (base ++ [i]) (p.heap.append s i).2 g1 (by simp)
        (fun j => by rw [Nat.zero_add])
        (by intro n hn
            split at hn
            · exact hns n hn
            · rcases List.mem_append.mp hn with hn | hn
              · exact hns n hn
              · simp at hn; subst hn; exact ownName_ne_nil f hname) hnamed
      have hor : (p.heap.append s i).2.arr = s.arr ∨ (p.heap.append s i).2.arr = p.heap.length :=
        g3.imp And.left id
      refine ⟨new, h1, h2, h3, g2.inner h4 hg.lt (by rw [g1.len, hg.len]; simp) hor, ?_⟩
      rw [List.forall₂_map_right_iff]
      refine h5.imp ?_
      intro pm π st
      obtain ⟨cs, t', c1, c2, c3⟩ := st.leads
      obtain ⟨d1, d2⟩ := chain_down hat hfo c1
      refine ⟨⟨f :: cs, t', d1, ?_, c3⟩, st.query, st.bound, ?_⟩
      · rw [c2, visible_cons f cs d2]
        cases f.anonymous <;> simp
      · intro hfull
        have e : (base ++ [i]).length + π.length - 1 = base.length + (i :: π).length - 1 := by
          simp <;> omega
        obtain ⟨r1, r2⟩ := st.reads (by rw [e]; exact hfull)
        exact ⟨by rw [r1]; simp, Nat.le_trans g2.grows r2⟩
theorem walkFields_spec (p : Parser) (fs full : Fields) (i : Nat) (ns : List Str)
    (base : List Nat) (s : Slice) (hg : Good p.heap s base) (hbase : base ≠ [])
    (hat : ∀ j, fieldAt full (i + j) = fieldAt fs j) (hns : ∀ n ∈ ns, n ≠ []) (hnamed : FieldsNamed fs) :
    ∃ new, (p.walkFields fs i s (joinDots ns)).list = p.list ++ new ∧
      (p.walkFields fs i s (joinDots ns)).pos = p.pos ∧
      (p.walkFields fs i s (joinDots ns)).static = p.static ∧
      Frame p.heap (p.walkFields fs i s (joinDots ns)).heap s ∧
      List.Forall₂ (Stands full ns base p.heap.length (p.walkFields fs i s (joinDots ns)).heap) new
        (pathsFields fs i) := by
  match fs with
  | .nil =>
    simp only [Parser.walkFields, pathsFields]
    exact ⟨[], by simp, trivial, trivial, Frame.refl _ _, .nil⟩
  | .cons f t rest =>
    have hat' : ∀ j, fieldAt full (i + 1 + j) = fieldAt rest j := by
      intro j
      have := hat (j + 1)
      rw [show i + 1 + j = i + (j + 1) by omega, this, fieldAt]
    simp only [Parser.walkFields, pathsFields]
    by_cases he : f.exported = true
    · simp only [he, not_true, if_false]
      obtain ⟨n1, h1, h2, h3, h4, h5⟩ := walkTy_spec p t t f full ns base s i hg hbase
        (by have := hat 0; simpa [fieldAt] using this) rfl rfl hnamed.1 hns hnamed.2.1
      obtain ⟨n2, k1, k2, k3, k4, k5⟩ := walkFields_spec
        (p.walkTy t t.isText f.anonymous (fieldParamName f (joinDots ns)) (joinDots ns) s i)
        rest full (i + 1) ns base s (hg.frame h4) hbase hat' hns hnamed.2.2
      refine ⟨n1 ++ n2, by rw [k1, h1, List.append_assoc], by rw [k2, h2], by rw [k3, h3], h4.trans k4, ?_⟩
      refine List.rel_append ?_ ?_
      · exact h5.imp (fun pm π st => st.frame k4 hg.lt)
      · refine k5.imp (fun pm π st => ⟨st.leads, st.query, st.bound, fun hf => ?_⟩)
        exact ⟨(st.reads hf).1, Nat.le_trans h4.grows (st.reads hf).2⟩
    · simp only [he]
      exact walkFields_spec p rest full (i + 1) ns base s hg hbase hat' hns hnamed.2.2
end

/-! ## The paths are those to the leaves -/

theorem textual_eq (t : Ty) : t.isText = textual t := by
  match t with
  | .scalar _ => rfl
  | .struct _ _ => rfl
  | .ptr (.scalar _) => rfl
  | .ptr (.struct _ _) => rfl
  | .ptr (.ptr _) => rfl

mutual
theorem pathsTy_iff (t t0 : Ty) (i : Nat) (hfo : fieldsOf t0 = fieldsOf t) (π : List Nat) :
    π ∈ pathsTy t (textual t0) i ↔
      (π = [i] ∧ (fieldsOf t0 = none ∨ textual t0 = true)) ∨
      (∃ fs is, fieldsOf t0 = some fs ∧ textual t0 = false ∧ π = i :: is ∧ LeafPath fs is) := by
  match t with
  | .ptr t => rw [pathsTy]; exact pathsTy_iff t t0 i hfo π
  | .scalar b =>
    have : fieldsOf t0 = none := by rw [hfo]; rfl
    simp [pathsTy, this]
  | .struct b fs =>
    have hs : fieldsOf t0 = some fs := by rw [hfo]; rfl
    rw [pathsTy]
    cases htx : textual t0 with
    | true => simp
    | false =>
      have ih := fun π => pathsFields_iff fs fs 0 (fun j => by rw [Nat.zero_add]) π
      simp only [Bool.false_eq_true, if_false, hs, List.mem_map]
      constructor
      · rintro ⟨is, his, rfl⟩
        exact Or.inr ⟨fs, is, rfl, trivial, rfl, ((ih is).mp his).2⟩
      · rintro (⟨_, h | h⟩ | ⟨fs', is, h1, _, rfl, h2⟩)
        · exact absurd h (by simp)
        · exact absurd h (by simp)
        · injection h1 with h1; subst h1
          refine ⟨is, (ih is).mpr ⟨?_, h2⟩, rfl⟩
          cases h2 <;> simp
theorem pathsFields_iff (fs full : Fields) (i : Nat) (hat : ∀ j, fieldAt full (i + j) = fieldAt fs j)
    (π : List Nat) :
    π ∈ pathsFields fs i ↔ (∃ k, π.head? = some k ∧ i ≤ k) ∧ LeafPath full π := by
  match fs with
  | .nil =>
    simp only [pathsFields, List.not_mem_nil, false_iff]
    rintro ⟨⟨k, hk, hik⟩, hl⟩
    have h0 := hat (k - i)
    rw [show i + (k - i) = k by omega, fieldAt] at h0
    cases hl with
    | here h1 _ _ => simp at hk; subst hk; rw [h0] at h1; simp at h1
    | down h1 _ _ _ _ => simp at hk; subst hk; rw [h0] at h1; simp at h1
  | .cons f t rest =>
    have hat' : ∀ j, fieldAt full (i + 1 + j) = fieldAt rest j := by
      intro j
      have := hat (j + 1)
      rw [show i + 1 + j = i + (j + 1) by omega, this, fieldAt]
    have h0 : fieldAt full i = some (f, t) := by have := hat 0; simpa [fieldAt] using this
    have ih := pathsFields_iff rest full (i + 1) hat' π
    rw [pathsFields]
    by_cases he : f.exported = true
    · simp only [he, not_true, if_false, List.mem_append, ih, textual_eq]
      rw [pathsTy_iff t t i rfl]
      constructor
      · rintro ((⟨rfl, h⟩ | ⟨fs', is, h1, h2, rfl, h3⟩) | ⟨⟨k, hk, hik⟩, hl⟩)
        · exact ⟨⟨i, rfl, Nat.le_refl _⟩, .here h0 he h⟩
        · exact ⟨⟨i, rfl, Nat.le_refl _⟩, .down h0 he h1 h2 h3⟩
        · exact ⟨⟨k, hk, by omega⟩, hl⟩
      · rintro ⟨⟨k, hk, hik⟩, hl⟩
        by_cases hki : k = i
        · subst hki
          left
          cases hl with
          | here h1 h2 h3 =>
            simp at hk; subst hk
            rw [h0] at h1; injection h1 with h1; injection h1 with h1 h1'; subst h1; subst h1'
            exact Or.inl ⟨rfl, h3⟩
          | down h1 h2 h3 h4 h5 =>
            simp at hk; subst hk
            rw [h0] at h1; injection h1 with h1; injection h1 with h1 h1'; subst h1; subst h1'
            exact Or.inr ⟨_, _, h3, h4, rfl, h5⟩
        · exact Or.inr ⟨⟨k, hk, by omega⟩, hl⟩
    · simp only [he, Bool.false_eq_true, not_false_eq_true, if_true, ih]
      constructor
      · rintro ⟨⟨k, hk, hik⟩, hl⟩; exact ⟨⟨k, hk, by omega⟩, hl⟩
      · rintro ⟨⟨k, hk, hik⟩, hl⟩
        refine ⟨⟨k, hk, ?_⟩, hl⟩
        rcases Nat.lt_or_ge i k with h | h
        · exact h
        · have : k = i := by omega
          subst this
          cases hl with
          | here h1 h2 _ => simp at hk; subst hk; rw [h0] at h1; injection h1 with h1; injection h1 with h1 _; subst h1; exact absurd h2 he
          | down h1 h2 _ _ _ => simp at hk; subst hk; rw [h0] at h1; injection h1 with h1; injection h1 with h1 _; subst h1; exact absurd h2 he
end

theorem pathsTy_head (t : Ty) (text : Bool) (i : Nat) : ∀ π ∈ pathsTy t text i, π.head? = some i := by
  match t with
  | .ptr t => rw [pathsTy]; exact pathsTy_head t text i
  | .scalar b => simp [pathsTy]
  | .struct b fs =>
    rw [pathsTy]
    split
    · simp
    · intro π hπ
      obtain ⟨is, _, rfl⟩ := List.mem_map.mp hπ
      rfl

theorem pathsFields_head (fs : Fields) : ∀ i, ∀ π ∈ pathsFields fs i, ∃ k, π.head? = some k ∧ i ≤ k := by
  induction fs using Fields.rec (motive_1 := fun _ => True) with
  | scalar => trivial
  | ptr => trivial
  | struct => trivial
  | nil => intro i π h; simp [pathsFields] at h
  | cons f t rest _ ih =>
    intro i π h
    rw [pathsFields] at h
    split at h
    · obtain ⟨k, h1, h2⟩ := ih _ π h; exact ⟨k, h1, by omega⟩
    · rcases List.mem_append.mp h with h | h
      · exact ⟨i, pathsTy_head _ _ _ π h, Nat.le_refl _⟩
      · obtain ⟨k, h1, h2⟩ := ih _ π h; exact ⟨k, h1, by omega⟩

mutual
theorem pathsTy_nodup (t : Ty) (text : Bool) (i : Nat) : (pathsTy t text i).Nodup := by
  match t with
  | .ptr t => rw [pathsTy]; exact pathsTy_nodup t text i
  | .scalar b => simp [pathsTy]
  | .struct b fs =>
    rw [pathsTy]
    split
    · simp
    · exact List.Pairwise.map (i :: ·) (fun a b h e => h (by simpa using e)) (pathsFields_nodup fs 0)
theorem pathsFields_nodup (fs : Fields) (i : Nat) : (pathsFields fs i).Nodup := by
  match fs with
  | .nil => simp [pathsFields]
  | .cons f t rest =>
    rw [pathsFields]
    split
    · exact pathsFields_nodup rest (i + 1)
    · rw [List.nodup_append]
      refine ⟨pathsTy_nodup t _ i, pathsFields_nodup rest (i + 1), ?_⟩
      intro a ha b hb e
      subst e
      have h1 := pathsTy_head _ _ _ a ha
      obtain ⟨k, h2, h3⟩ := pathsFields_head _ _ a hb
      rw [h1] at h2; injection h2 with h2; omega
end

theorem capOf_full : ∀ e : Fin 9, ¬ 2 ^ e.val < capOf (2 ^ e.val) := by decide +kernel

end Verif.Rest
