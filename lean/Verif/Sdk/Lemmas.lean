import Verif.Sdk.Spec

/-! # The JavaScript client: proofs -/
namespace Verif.Sdk
open Spec

/-! ## Texts -/

/-- The elements of a path without the first. -/
abbrev Raw := List (List Str × Item)

def joined (E : List Str) : Str := E.flatMap fun s => '/' :: s

theorem name_nosep {s : Str} (h : Name s) : '/' ∉ s ∧ '.' ∉ s ∧ '{' ∉ s := by
  refine ⟨?_, ?_, ?_⟩ <;> intro hm <;> rcases h.2.2 _ hm with h | h | h <;> revert h <;> decide

theorem split_none (s : Str) (h : '/' ∉ s) : split s = [s] := by
  induction s with
  | nil => rfl
  | cons c s ih =>
    simp only [List.mem_cons, not_or] at h
    simp [split, ih h.2, Ne.symm h.1]

theorem split_append (s t : Str) (h : '/' ∉ s) : split (s ++ '/' :: t) = s :: split t := by
  induction s with
  | nil => simp [split]
  | cons c s ih =>
    simp only [List.mem_cons, not_or] at h
    simp [split, ih h.2, Ne.symm h.1]

theorem split_tail (E : List Str) (s : Str) (hs : '/' ∉ s) (h : ∀ s ∈ E, '/' ∉ s) :
    split (s ++ joined E) = s :: E := by
  induction E generalizing s with
  | nil => simpa [joined] using split_none s hs
  | cons e E ih =>
    have : s ++ joined (e :: E) = s ++ '/' :: (e ++ joined E) := by simp [joined]
    rw [this, split_append _ _ hs, ih e (h e (by simp)) (fun t ht => h t (by simp [ht]))]

theorem split_joined (E : List Str) (h : ∀ s ∈ E, '/' ∉ s) : split (joined E) = [] :: E := by
  simpa using split_tail E [] (by simp) h

theorem dots_none (s : Str) (h : '.' ∉ s) : dots s = [s] := by
  induction s with
  | nil => rfl
  | cons c s ih =>
    simp only [List.mem_cons, not_or] at h
    simp [dots, ih h.2, Ne.symm h.1]

theorem dots_append (s t : Str) (h : '.' ∉ s) : dots (s ++ '.' :: t) = s :: dots t := by
  induction s with
  | nil => simp [dots]
  | cons c s ih =>
    simp only [List.mem_cons, not_or] at h
    simp [dots, ih h.2, Ne.symm h.1]

def dotted (E : List Str) : Str := E.flatMap fun s => '.' :: s

theorem dots_tail (E : List Str) (s : Str) (hs : '.' ∉ s) (h : ∀ s ∈ E, '.' ∉ s) :
    dots (s ++ dotted E) = s :: E := by
  induction E generalizing s with
  | nil => simpa [dotted] using dots_none s hs
  | cons e E ih =>
    have : s ++ dotted (e :: E) = s ++ '.' :: (e ++ dotted E) := by simp [dotted]
    rw [this, dots_append _ _ hs, ih e (h e (by simp)) (fun t ht => h t (by simp [ht]))]

theorem ident_of_name {s : Str} (h : Name s) : isIdent s = true := by
  cases s with
  | nil => exact absurd rfl h.1
  | cons c s =>
    simp only [isIdent, h.2.1 c rfl, Bool.not_false, Bool.true_and, List.all_eq_true, nameChar]
    intro d hd
    rcases h.2.2 d hd with h | h | h
    · rw [Char.isAlphanum] at h; simp [h]
    · simp [h]
    · simp [h]

theorem map_joined (E : List Str) (h : ∀ s ∈ E, '/' ∉ s) :
    ((joined E).map fun c => if c = '/' then '.' else c) = dotted E := by
  induction E with
  | nil => rfl
  | cons e E ih =>
    have he : e.map (fun c => if c = '/' then '.' else c) = e := by
      conv => rhs; rw [← List.map_id e]
      apply List.map_congr_left
      intro c hc
      have : c ≠ '/' := by rintro rfl; exact h e (by simp) hc
      simp [this]
    have ih' := ih (fun s hs => h s (by simp [hs]))
    simp only [joined, dotted, List.flatMap_cons, List.map_append, List.map_cons, if_true, he] at ih' ⊢
    rw [ih']

theorem joined_ne (E : List Str) (hE : E ≠ []) (h : ∀ s ∈ E, Name s) : joined E ≠ ['/'] ∧ joined E ≠ [] := by
  cases E with
  | nil => exact absurd rfl hE
  | cons e E =>
    have := (h e (by simp)).1
    cases e with
    | nil => exact absurd rfl this
    | cons c e => simp [joined]

theorem parse_converted (E : List Str) (hE : E ≠ []) (h : ∀ s ∈ E, Name s) :
    parse (converted (joined E)) = some E := by
  have h1 := joined_ne E hE h
  have h2 : dots (dotted E) = [] :: E := by
    simpa using dots_tail E [] (by simp) (fun s hs => (name_nosep (h s hs)).2.1)
  rw [converted, if_neg (by simp [h1]), map_joined E (fun s hs => (name_nosep (h s hs)).1), parse, h2]
  simp only
  rw [if_pos]
  simp only [List.all_eq_true]
  exact fun s hs => ident_of_name (h s hs)

/-! ## The tree -/

def Kids.keys : Kids → List Str
  | .nil => []
  | .cons k _ rest => k :: rest.keys

def RawOffered (raw : Raw) (E : List Str) (m : Meth) : Prop := ∃ item, (E, item) ∈ raw ∧ item m = true

/-- A path of the document goes this way. -/
def Under (raw : Raw) (P : List Str) : Prop := ∃ d ∈ raw, P <+: d.1

def GoodItem (raw : Raw) (P : List Str) (item : Item) (kids : Kids) : Prop :=
  (∀ m, item m = true ↔ RawOffered raw P m) ∧ ∀ k, k ∈ kids.keys ↔ Under raw (P ++ [k])

mutual
/-- The node is the one for this prefix. -/
def Rep (raw : Raw) (P : List Str) : Node → Prop
  | .mk path _ item kids => path = joined P ∧ GoodItem raw P item kids ∧ RepKids raw P kids

def RepKids (raw : Raw) (P : List Str) : Kids → Prop
  | .nil => True
  | .cons k n rest => Rep raw (P ++ [k]) n ∧ k ∉ rest.keys ∧ RepKids raw P rest
end

theorem joined_snoc (P : List Str) (k : Str) : joined (P ++ [k]) = joined P ++ '/' :: k := by simp [joined]

theorem prefix_snoc_of {P E : List Str} {k : Str} (h : P ++ [k] <+: E) : P <+: E := (List.prefix_append P [k]).trans h

mutual
/-- Another document elsewhere changes nothing. -/
theorem rep_other (raw : Raw) (P : List Str) (d : List Str × Item) (h : ¬ P <+: d.1) :
    ∀ n, Rep raw P n → Rep (raw ++ [d]) P n
  | .mk path base item kids, ⟨h1, ⟨h2, h3⟩, h4⟩ => by
    refine ⟨h1, ⟨fun m => ?_, fun k => ?_⟩, repKids_other raw P d kids (fun k _ hp => h (prefix_snoc_of hp)) h4⟩
    · rw [h2 m]
      constructor
      · rintro ⟨it, h5, h6⟩; exact ⟨it, by simp [h5], h6⟩
      · rintro ⟨it, h5, h6⟩
        rcases List.mem_append.1 h5 with h5 | h5
        · exact ⟨it, h5, h6⟩
        · simp only [List.mem_singleton] at h5
          exact absurd (by rw [← h5]; exact List.prefix_refl _) h
    · rw [h3 k]
      constructor
      · rintro ⟨e, h5, h6⟩; exact ⟨e, by simp [h5], h6⟩
      · rintro ⟨e, h5, h6⟩
        rcases List.mem_append.1 h5 with h5 | h5
        · exact ⟨e, h5, h6⟩
        · simp only [List.mem_singleton] at h5
          subst h5
          exact absurd (prefix_snoc_of h6) h

theorem repKids_other (raw : Raw) (P : List Str) (d : List Str × Item) :
    ∀ kids, (∀ k ∈ kids.keys, ¬ P ++ [k] <+: d.1) → RepKids raw P kids → RepKids (raw ++ [d]) P kids
  | .nil, _, _ => trivial
  | .cons k n rest, h, ⟨h1, h2, h3⟩ =>
    ⟨rep_other raw _ d (h k (by simp [Kids.keys])) n h1, h2,
      repKids_other raw P d rest (fun k hk => h k (by simp [Kids.keys, hk])) h3⟩
end

theorem alter_keys (key : Str) (f : Node → Node) (new : Node) (kids : Kids) :
    ∀ k, k ∈ (kids.alter key f new).keys ↔ k ∈ kids.keys ∨ k = key := by
  intro k
  match kids with
  | .nil => simp [Kids.alter, Kids.keys]
  | .cons k' n rest =>
    have ih := alter_keys key f new rest k
    by_cases h : k' = key
    · subst h
      simp [Kids.alter, Kids.keys]
      intro h; exact Or.inl h
    · simp [Kids.alter, h, Kids.keys, ih]
      rw [or_assoc]

theorem rep_new (raw : Raw) (P : List Str) (base : Str) (h : ¬ Under raw P) : Rep raw P (newNode base (joined P)) := by
  refine ⟨rfl, ⟨fun m => ?_, fun k => ?_⟩, trivial⟩
  · simp only [Bool.false_eq_true, false_iff]
    rintro ⟨it, h1, _⟩
    exact h ⟨_, h1, List.prefix_refl _⟩
  · simp only [Kids.keys, List.not_mem_nil, false_iff]
    rintro ⟨d, h1, h2⟩
    exact h ⟨d, h1, prefix_snoc_of h2⟩

/-- One kid is changed. -/
theorem repKids_alter (raw : Raw) (P : List Str) (d : List Str × Item) (key : Str) (f : Node → Node) (new : Node)
    (hf : ∀ n, Rep raw (P ++ [key]) n → Rep (raw ++ [d]) (P ++ [key]) (f n)) (hd : P ++ [key] <+: d.1) :
    ∀ kids, RepKids raw P kids → (key ∉ kids.keys → Rep raw (P ++ [key]) new) →
      RepKids (raw ++ [d]) P (kids.alter key f new)
  | .nil, _, hnew => ⟨hf _ (hnew (by simp [Kids.keys])), by simp [Kids.keys], trivial⟩
  | .cons k n rest, ⟨h1, h2, h3⟩, hnew => by
    have other : ∀ k', k' ≠ key → ¬ P ++ [k'] <+: d.1 := by
      rintro k' hk hp
      obtain ⟨a, ha⟩ := hd
      obtain ⟨b, hb⟩ := hp
      rw [← ha] at hb
      simp only [List.append_assoc, List.append_cancel_left_eq, List.cons_append, List.nil_append, List.cons.injEq] at hb
      exact hk hb.1
    by_cases h : k = key
    · subst h
      simp only [Kids.alter, if_true]
      exact ⟨hf n h1, h2, repKids_other raw P d rest (fun k' hk' => other k' (by rintro rfl; exact h2 hk')) h3⟩
    · simp only [Kids.alter, h, if_false]
      refine ⟨rep_other raw _ d (other k h) n h1, ?_, repKids_alter raw P d key f new hf hd rest h3 ?_⟩
      · rw [alter_keys]; simp [h2, h]
      · intro hk; exact hnew (by simp [Kids.keys, hk, Ne.symm h])

/-- The parts of a node that change with a document below it. -/
theorem good_alter {raw : Raw} {P : List Str} {d : List Str × Item} {item : Item} {kids kids' : Kids} {key : Str}
    {rest : List Str} (h : GoodItem raw P item kids) (hd : d.1 = P ++ key :: rest)
    (hk : ∀ k, k ∈ kids'.keys ↔ k ∈ kids.keys ∨ k = key) : GoodItem (raw ++ [d]) P item kids' := by
  refine ⟨fun m => ?_, fun k => ?_⟩
  · rw [h.1 m]
    constructor
    · rintro ⟨it, h5, h6⟩; exact ⟨it, by simp [h5], h6⟩
    · rintro ⟨it, h5, h6⟩
      rcases List.mem_append.1 h5 with h5 | h5
      · exact ⟨it, h5, h6⟩
      · simp only [List.mem_singleton] at h5
        rw [← h5] at hd
        simp at hd
  · rw [hk, h.2 k]
    constructor
    · rintro (⟨e, h5, h6⟩ | rfl)
      · exact ⟨e, by simp [h5], h6⟩
      · exact ⟨d, by simp, by rw [hd]; exact ⟨rest, by simp⟩⟩
    · rintro ⟨e, h5, h6⟩
      rcases List.mem_append.1 h5 with h5 | h5
      · exact Or.inl ⟨e, h5, h6⟩
      · simp only [List.mem_singleton] at h5
        subst h5
        right
        rw [hd] at h6
        obtain ⟨a, ha⟩ := h6
        simp only [List.append_assoc, List.append_cancel_left_eq, List.cons_append, List.nil_append, List.cons.injEq] at ha
        exact ha.1

theorem good_here {raw : Raw} {P : List Str} {item it : Item} {kids : Kids} (h : GoodItem raw P item kids) :
    GoodItem (raw ++ [(P, it)]) P (fun m => item m || it m) kids := by
  refine ⟨fun m => ?_, fun k => ?_⟩
  · simp only [Bool.or_eq_true, h.1 m]
    constructor
    · rintro (⟨i, h5, h6⟩ | h6)
      · exact ⟨i, by simp [h5], h6⟩
      · exact ⟨it, by simp, h6⟩
    · rintro ⟨i, h5, h6⟩
      rcases List.mem_append.1 h5 with h5 | h5
      · exact Or.inl ⟨i, h5, h6⟩
      · simp only [List.mem_singleton, Prod.mk.injEq, true_and] at h5
        exact Or.inr (h5 ▸ h6)
  · rw [h.2 k]
    constructor
    · rintro ⟨e, h5, h6⟩; exact ⟨e, by simp [h5], h6⟩
    · rintro ⟨e, h5, h6⟩
      rcases List.mem_append.1 h5 with h5 | h5
      · exact ⟨e, h5, h6⟩
      · simp only [List.mem_singleton] at h5
        subst h5
        obtain ⟨a, ha⟩ := h6
        simp at ha

theorem rep_add (raw : Raw) (rest : List Str) (P : List Str) (item : Item) (n : Node) (h : Rep raw P n) :
    Rep (raw ++ [(P ++ rest, item)]) P (addAt rest (joined P) item n) := by
  induction rest generalizing P n with
  | nil =>
    obtain ⟨path, base, it, kids⟩ := n
    obtain ⟨h1, h2, h4⟩ := h
    simp only [List.append_nil]
    exact ⟨h1, good_here h2, repKids_other raw P _ kids (fun k _ ⟨a, ha⟩ => by simp at ha) h4⟩
  | cons key rest ih =>
    obtain ⟨path, base, it, kids⟩ := n
    obtain ⟨h1, h2, h4⟩ := h
    refine ⟨h1, good_alter h2 rfl (alter_keys _ _ _ _), repKids_alter raw P _ key _ _ ?_ ⟨rest, by simp⟩ kids h4 ?_⟩
    · intro n hn
      have := ih (P ++ [key]) n hn
      simpa [joined_snoc] using this
    · intro hk
      rw [← joined_snoc]
      apply rep_new
      rw [← h2.2 key]
      exact hk

/-- The tree but for the path of its root. -/
def RepRoot (raw : Raw) : Node → Prop
  | .mk path _ item kids => path = ['/'] ∧ GoodItem raw [] item kids ∧ RepKids raw [] kids

theorem root_add (raw : Raw) (rest : List Str) (item : Item) (n : Node) (h : RepRoot raw n) :
    RepRoot (raw ++ [(rest, item)]) (addAt rest [] item n) := by
  obtain ⟨path, base, it, kids⟩ := n
  obtain ⟨h1, h2, h4⟩ := h
  have := rep_add raw rest [] item (.mk [] base it kids) ⟨rfl, h2, h4⟩
  cases rest with
  | nil => exact ⟨h1, this.2⟩
  | cons k rest => exact ⟨h1, this.2⟩

/-- The elements of the paths. -/
def rawOf (docs : List (Str × Item)) : Raw := docs.map fun d => ((split d.1).tail, d.2)

theorem root_build (docs : List (Str × Item)) (h : ∀ d ∈ docs, (split d.1).head? = some []) :
    RepRoot (rawOf docs) (build docs) := by
  have main : ∀ (docs : List (Str × Item)) (raw : Raw) (n : Node), (∀ d ∈ docs, (split d.1).head? = some []) → RepRoot raw n →
      RepRoot (raw ++ rawOf docs) (docs.foldl (fun n d => addItem n d.1 d.2) n) := by
    intro docs
    induction docs with
    | nil => intro raw n _ h; simpa [rawOf] using h
    | cons d docs ih =>
      intro raw n hd hn
      have hsplit : split d.1 = [] :: (split d.1).tail := by
        have := hd d (by simp)
        cases hs : split d.1 with
        | nil => rw [hs] at this; cases this
        | cons a b => rw [hs] at this; simp at this; subst this; rfl
      have h1 : addItem n d.1 d.2 = addAt (split d.1).tail [] d.2 n := by
        unfold addItem; rw [hsplit]; rfl
      have := ih (raw ++ [((split d.1).tail, d.2)]) (addItem n d.1 d.2) (fun e he => hd e (by simp [he]))
        (by rw [h1]; exact root_add raw _ _ n hn)
      simpa [rawOf] using this
  have := main docs [] (newNode ['/'] ['/']) h ⟨rfl, ⟨fun m => by simp [RawOffered], fun k => by simp [Kids.keys, Under]⟩, trivial⟩
  simpa [build] using this

/-! ## Running it -/

/-- The paths the proofs are about: one empty element, or names. -/
def PlainRaw (raw : Raw) : Prop :=
  ∀ d ∈ raw, d.1 = [[]] ∨ d.1 ≠ [] ∧ ∀ s ∈ d.1, Name s ∧ ∀ m : Meth, s ≠ m.name

/-- The elements of the node whose functions are the properties of this chain. -/
def elems (p : List Str) : List Str := if p = [] then [[]] else p

/-- The function assigned for an operation. -/
def valOf (m : Meth) (suffix : Str) : Val :=
  match m with
  | .get => .get suffix
  | m => .call m suffix

def stmtOf (m : Meth) (target suffix : Str) : Stmt :=
  match m with
  | .get => .get target suffix
  | m => .call m target suffix

open Classical in
/-- The client in the end. -/
noncomputable def goal (raw : Raw) : Heap := fun q =>
  if q = [] ∨ ([] ∉ q ∧ Under raw q) then some .object
  else if h : ∃ m, ∃ p, q = p ++ [Meth.name m] ∧ [] ∉ p ∧ RawOffered raw (elems p) m then
    some (valOf h.choose (joined (elems h.choose_spec.choose)))
  else none

theorem meth_name_inj {m m' : Meth} (h : m.name = m'.name) : m = m' := by
  revert h; cases m <;> cases m' <;> decide

theorem meth_name_ne (m : Meth) : m.name ≠ [] := by cases m <;> decide

theorem meth_isName (m : Meth) : Name m.name := by
  cases m <;> refine ⟨by decide, ?_, by decide⟩ <;> intro c h <;> cases h <;> decide

/-- Under a name that is a method's there is nothing in the document. -/
theorem not_under_method {raw : Raw} (hp : PlainRaw raw) (p r : List Str) (m : Meth) : ¬ Under raw (p ++ m.name :: r) := by
  rintro ⟨d, hd, hpre⟩
  have hm : m.name ∈ d.1 := hpre.subset (by simp)
  rcases hp d hd with h | ⟨_, h⟩
  · rw [h] at hm; exact meth_name_ne m (by simpa using hm)
  · exact (h _ hm).2 m rfl

theorem goal_method {raw : Raw} (hp : PlainRaw raw) (p : List Str) (hP : [] ∉ p) (m : Meth)
    (h : RawOffered raw (elems p) m) :
    goal raw (p ++ [m.name]) = some (valOf m (joined (elems p))) := by
  have h1 : ¬ (p ++ [m.name] = [] ∨ ([] ∉ p ++ [m.name] ∧ Under raw (p ++ [m.name]))) := by
    rintro (h | h)
    · simp at h
    · exact not_under_method hp p [] m h.2
  have h2 : ∃ m', ∃ p', p ++ [m.name] = p' ++ [Meth.name m'] ∧ [] ∉ p' ∧ RawOffered raw (elems p') m' :=
    ⟨m, p, rfl, hP, h⟩
  have e := h2.choose_spec.choose_spec.1
  have e1 := (List.append_inj' e rfl)
  have e2 : m = h2.choose := meth_name_inj (by simpa using e1.2)
  simp only [goal, if_neg h1, dif_pos h2]
  rw [← e1.1, ← e2]

theorem goal_none {raw : Raw} {q : List Str} (h1 : q ≠ []) (h2 : ¬ Under raw q)
    (h3 : ∀ m p, q = p ++ [Meth.name m] → [] ∉ p → ¬ RawOffered raw (elems p) m) : goal raw q = none := by
  have h4 : ¬ (q = [] ∨ ([] ∉ q ∧ Under raw q)) := by
    rintro (h | h)
    · exact h1 h
    · exact h2 h.2
  have h5 : ¬ ∃ m, ∃ p, q = p ++ [Meth.name m] ∧ [] ∉ p ∧ RawOffered raw (elems p) m := by
    rintro ⟨m, p, e, hP, h⟩; exact h3 m p e hP h
  simp only [goal, if_neg h4, dif_neg h5]

/-- Running these statements, with an object at `base`, makes what is in `D` as it is in the end. -/
def Chunk (raw : Raw) (base : List Str) (D : List Str → Prop) (c : List Stmt) : Prop :=
  (∀ s ∈ c, s.valid = true) ∧ ∀ h : Heap, (h base).isSome = true → ¬ D base →
    ∃ h', execAll h c = some h' ∧ ∀ q, (D q → h' q = goal raw q) ∧ (¬ D q → h' q = h q)

theorem execAll_append (h : Heap) (a b : List Stmt) : execAll h (a ++ b) = (execAll h a).bind fun h => execAll h b := by
  induction a generalizing h with
  | nil => rfl
  | cons s a ih =>
    simp only [List.cons_append, execAll]
    cases exec h s with
    | none => rfl
    | some h => exact ih h

theorem chunk_flatten (raw : Raw) (base : List Str) (cs : List ((List Str → Prop) × List Stmt))
    (h : ∀ x ∈ cs, Chunk raw base x.1 x.2) (hb : ∀ x ∈ cs, ¬ x.1 base) :
    Chunk raw base (fun q => ∃ x ∈ cs, x.1 q) (cs.map (·.2)).flatten := by
  constructor
  · intro s hs
    simp only [List.mem_flatten, List.mem_map] at hs
    obtain ⟨c, ⟨x, hx, rfl⟩, hs⟩ := hs
    exact (h x hx).1 s hs
  · intro h0 h1 _
    induction cs generalizing h0 with
    | nil => exact ⟨h0, rfl, fun q => ⟨fun ⟨x, hx, _⟩ => absurd hx (by simp), fun _ => rfl⟩⟩
    | cons x cs ih =>
      obtain ⟨h', e1, q1⟩ := (h x (by simp)).2 h0 h1 (hb x (by simp))
      have hbase : (h' base).isSome = true := by rw [(q1 base).2 (hb x (by simp))]; exact h1
      obtain ⟨h'', e2, q2⟩ := ih (fun y hy => h y (by simp [hy])) (fun y hy => hb y (by simp [hy])) h' hbase
        (fun ⟨y, hy, hd⟩ => hb y (by simp [hy]) hd)
      refine ⟨h'', ?_, fun q => ⟨?_, ?_⟩⟩
      · rw [List.map_cons, List.flatten_cons, execAll_append, e1]; exact e2
      · rintro ⟨y, hy, hd⟩
        by_cases hc : ∃ x ∈ cs, x.1 q
        · exact (q2 q).1 hc
        · rw [(q2 q).2 hc]
          rcases List.mem_cons.1 hy with rfl | hy
          · exact (q1 q).1 hd
          · exact absurd ⟨y, hy, hd⟩ hc
      · intro hn
        rw [(q2 q).2 (fun ⟨y, hy, hd⟩ => hn ⟨y, by simp [hy], hd⟩), (q1 q).2 (fun hd => hn ⟨x, by simp, hd⟩)]

/-- All the operations. -/
def meths : List Meth := [.get, .post, .put, .delete, .patch, .options]

theorem mem_meths (m : Meth) : m ∈ meths := by cases m <;> decide

theorem methods_eq (path : Str) (item : Item) :
    methods path item = (meths.filter item).map fun m => stmtOf m (converted path) path := by
  simp only [methods, meths, List.filter]
  cases item .get <;> cases item .post <;> cases item .put <;> cases item .delete <;> cases item .patch <;>
    cases item .options <;> rfl

theorem isPrefixOf_iff (p q : List Str) : p.isPrefixOf q = true ↔ p <+: q := List.isPrefixOf_iff_prefix

/-- One operation. -/
theorem chunk_method {raw : Raw} (hp : PlainRaw raw) (p : List Str) (hP : [] ∉ p) (path : Str) (m : Meth)
    (hparse : parse (converted path) = some p) (hpath : path = joined (elems p)) (hoff : RawOffered raw (elems p) m) :
    Chunk raw p (fun q => p ++ [m.name] <+: q) [stmtOf m (converted path) path] := by
  have hv : (stmtOf m (converted path) path).valid = true := by
    cases m <;> simp [stmtOf, Stmt.valid, hparse]
  refine ⟨by simpa using hv, ?_⟩
  intro h h1 _
  have hx : exec h (stmtOf m (converted path) path) = assign h (p ++ [m.name]) (valOf m path) := by
    cases m <;> simp [stmtOf, exec, hparse, valOf]
  have ha : assign h (p ++ [m.name]) (valOf m path) =
      some fun q => if q = p ++ [m.name] then some (valOf m path) else if (p ++ [m.name]).isPrefixOf q then none else h q := by
    simp [assign, h1]
  refine ⟨_, by simp only [execAll, hx, ha]; rfl, fun q => ⟨?_, ?_⟩⟩
  · intro hpre
    by_cases e : q = p ++ [m.name]
    · subst e
      simp [goal_method hp p hP m hoff, hpath]
    · simp only [e, if_false, (isPrefixOf_iff _ _).2 hpre, if_true]
      obtain ⟨r, rfl⟩ := hpre
      symm
      apply goal_none (by simp)
      · have := not_under_method hp p r m; simpa using this
      · intro m' p' e' _ ho
        have hr : r ≠ [] := by rintro rfl; simp at e
        obtain ⟨r', k, rfl⟩ : ∃ r' k, r = r' ++ [k] := ⟨r.dropLast, r.getLast hr, (List.dropLast_concat_getLast hr).symm⟩
        rw [← List.append_assoc] at e'
        have e1 := (List.append_inj' e' rfl).1
        obtain ⟨it, hmem, _⟩ := ho
        have : elems p' = p ++ m.name :: r' := by rw [← e1]; simp [elems]
        exact not_under_method hp p r' m ⟨_, hmem, by rw [this]; exact List.prefix_refl _⟩
  · intro hn
    have e : q ≠ p ++ [m.name] := by rintro rfl; exact hn (List.prefix_refl _)
    have : (p ++ [m.name]).isPrefixOf q = false := by
      rw [Bool.eq_false_iff]; intro hc; exact hn ((isPrefixOf_iff _ _).1 hc)
    simp [e, this]

/-- What a node below `P` is responsible for. -/
def Dom (raw : Raw) (P : List Str) (k : Str) (q : List Str) : Prop :=
  if k = [] then ∃ m : Meth, RawOffered raw [[]] m ∧ [m.name] <+: q else P ++ [k] <+: q

theorem under_names {raw : Raw} (hp : PlainRaw raw) {P : List Str} {k : Str} (hk : k ≠ []) (hu : Under raw (P ++ [k])) :
    ∀ s ∈ P ++ [k], Name s ∧ ∀ m : Meth, s ≠ m.name := by
  obtain ⟨d, hd, hpre⟩ := hu
  rcases hp d hd with h | ⟨_, h⟩
  · have : k ∈ d.1 := hpre.subset (by simp)
    rw [h] at this
    exact absurd (by simpa using this) hk
  · exact fun s hs => h s (hpre.subset hs)

theorem under_empty {raw : Raw} (hp : PlainRaw raw) {P : List Str} (hu : Under raw (P ++ [[]])) :
    P = [] ∧ ∀ k, ¬ Under raw (P ++ [[]] ++ [k]) := by
  have key : ∀ Q, Under raw (P ++ [[]] ++ Q) → P = [] ∧ Q = [] := by
    rintro Q ⟨d, hd, hpre⟩
    rcases hp d hd with h | ⟨_, h⟩
    · rw [h] at hpre
      have := hpre.length_le
      simp at this
      constructor
      · exact List.length_eq_zero_iff.1 (by omega)
      · exact List.length_eq_zero_iff.1 (by omega)
    · exact absurd rfl (h [] (hpre.subset (by simp))).1.1
  refine ⟨(key [] (by simpa using hu)).1, fun k hk => ?_⟩
  exact absurd (key [k] hk).2 (by simp)

theorem hasParam_false {raw : Raw} (hp : PlainRaw raw) {P : List Str} :
    ∀ (kids : Kids), (∀ k ∈ kids.keys, Under raw (P ++ [k])) → kids.hasParam = false
  | .nil, _ => rfl
  | .cons k n rest, h => by
    have h1 : isParam k = false := by
      by_cases hk : k = []
      · subst hk; rfl
      · have := (under_names hp hk (h k (by simp [Kids.keys])) k (by simp)).1
        rw [Bool.eq_false_iff]
        intro hc
        simp only [isParam, beq_iff_eq] at hc
        exact (name_nosep this).2.2 (List.mem_of_mem_head? hc)
    simp [Kids.hasParam, h1, hasParam_false hp rest (fun k hk => h k (by simp [Kids.keys, hk]))]

theorem emitsKids_keys : ∀ (kids : Kids) outs, EmitsKids false false kids outs → kids.hasParam = false → outs.map (·.1) = kids.keys
  | .nil, _, h, _ => by cases h; rfl
  | .cons k n rest, _, h, hp => by
    simp only [Kids.hasParam, Bool.or_eq_false_iff] at hp
    cases h with
    | take hk hn hr => simp [Kids.keys, emitsKids_keys rest _ hr hp.2]
    | skip hk hr => rw [hp.1] at hk; cases hk

/-- Chunks for the functions of a node. -/
theorem chunks_methods {raw : Raw} (hp : PlainRaw raw) (p : List Str) (hP : [] ∉ p) (path : Str) (item : Item)
    (hparse : parse (converted path) = some p) (hpath : path = joined (elems p))
    (hitem : ∀ m, item m = true ↔ RawOffered raw (elems p) m) :
    Chunk raw p (fun q => ∃ m, RawOffered raw (elems p) m ∧ p ++ [Meth.name m] <+: q) (methods path item) := by
  have h := chunk_flatten raw p
    ((meths.filter item).map fun m => ((fun q => p ++ [Meth.name m] <+: q), [stmtOf m (converted path) path]))
    (by
      intro x hx
      simp only [List.mem_map, List.mem_filter] at hx
      obtain ⟨m, ⟨_, hm⟩, rfl⟩ := hx
      exact chunk_method hp p hP path m hparse hpath ((hitem m).1 hm))
    (by
      intro x hx
      simp only [List.mem_map] at hx
      obtain ⟨m, _, rfl⟩ := hx
      rintro ⟨r, hr⟩
      simp at hr)
  have e1 : ((meths.filter item).map fun m =>
      (((fun q => p ++ [Meth.name m] <+: q), [stmtOf m (converted path) path]) : (List Str → Prop) × List Stmt)).map (·.2) =
      (meths.filter item).map fun m => [stmtOf m (converted path) path] := by simp
  rw [e1] at h
  have e2 : ((meths.filter item).map fun m => [stmtOf m (converted path) path]).flatten = methods path item := by
    rw [methods_eq]
    generalize meths.filter item = l
    induction l with
    | nil => rfl
    | cons m l ih => simp [ih]
  rw [e2] at h
  have e3 : (fun q => ∃ x ∈ (meths.filter item).map fun m =>
      (((fun q => p ++ [Meth.name m] <+: q), [stmtOf m (converted path) path]) : (List Str → Prop) × List Stmt), x.1 q) =
      fun q => ∃ m, RawOffered raw (elems p) m ∧ p ++ [Meth.name m] <+: q := by
    funext q
    apply propext
    constructor
    · rintro ⟨x, hx, hd⟩
      simp only [List.mem_map, List.mem_filter] at hx
      obtain ⟨m, ⟨_, hm⟩, rfl⟩ := hx
      exact ⟨m, (hitem m).1 hm, hd⟩
    · rintro ⟨m, hm, hd⟩
      exact ⟨_, List.mem_map.2 ⟨m, List.mem_filter.2 ⟨mem_meths m, (hitem m).2 hm⟩, rfl⟩, hd⟩
  rw [e3] at h
  exact h

/-- The functions and what is below, in any order. -/
theorem chunk_inner {raw : Raw} (hp : PlainRaw raw) (P : List Str) (hP : [] ∉ P) (path : Str) (item : Item) (kids : Kids)
    (mc : List Stmt) (M : List Str → Prop) (hM : ¬ M P) (hm : Chunk raw P M mc)
    (hk : ∀ k ∈ kids.keys, Under raw (P ++ [k]))
    (lits perm : List (Str × List Stmt)) (hkeys : lits.map (·.1) = kids.keys)
    (hc : ∀ x ∈ lits, Chunk raw P (Dom raw P x.1) x.2) (hperm : perm.Perm lits) :
    Chunk raw P (fun q => M q ∨ ∃ k ∈ kids.keys, Dom raw P k q) (mc ++ (perm.map (·.2)).flatten) := by
  have hdom : ∀ k ∈ kids.keys, ¬ Dom raw P k P := by
    intro k hk'
    by_cases h : k = []
    · subst h
      have := (under_empty hp (hk [] hk')).1
      subst this
      simp [Dom]
    · simp only [Dom, h, if_false]
      rintro ⟨r, hr⟩
      simp at hr
  have h := chunk_flatten raw P ((M, mc) :: perm.map fun x => (Dom raw P x.1, x.2))
    (by
      intro x hx
      rcases List.mem_cons.1 hx with rfl | hx
      · exact hm
      · obtain ⟨y, hy, rfl⟩ := List.mem_map.1 hx
        exact hc y (hperm.mem_iff.1 hy))
    (by
      intro x hx
      rcases List.mem_cons.1 hx with rfl | hx
      · exact hM
      · obtain ⟨y, hy, rfl⟩ := List.mem_map.1 hx
        exact hdom y.1 (by rw [← hkeys]; exact List.mem_map.2 ⟨y, hperm.mem_iff.1 hy, rfl⟩))
  have e1 : (((M, mc) :: perm.map fun x => (Dom raw P x.1, x.2)).map (·.2)).flatten = mc ++ (perm.map (·.2)).flatten := by
    simp
    rfl
  rw [e1] at h
  have e3 : (fun q => ∃ x ∈ ((M, mc) :: perm.map fun x => (Dom raw P x.1, x.2)), x.1 q) =
      fun q => M q ∨ ∃ k ∈ kids.keys, Dom raw P k q := by
    funext q
    apply propext
    simp only [List.mem_cons, List.mem_map, exists_eq_or_imp, ← hkeys]
    constructor
    · rintro (h | ⟨x, ⟨y, hy, rfl⟩, hd⟩)
      · exact Or.inl h
      · exact Or.inr ⟨y.1, ⟨y, hperm.mem_iff.1 hy, rfl⟩, hd⟩
    · rintro (h | ⟨k, ⟨y, hy, rfl⟩, hd⟩)
      · exact Or.inl h
      · exact Or.inr ⟨_, ⟨y, hperm.mem_iff.2 hy, rfl⟩, hd⟩
  rw [e3] at h
  exact h

mutual
theorem chunk_node {raw : Raw} (hp : PlainRaw raw) (P : List Str) (k : Str) (hu : Under raw (P ++ [k])) :
    ∀ n out, Rep raw (P ++ [k]) n → Emits false n out → Chunk raw P (Dom raw P k) out
  | .mk path base item kids, out, ⟨h1, h2, h4⟩, he => by
    have hkk : ∀ k' ∈ kids.keys, Under raw (P ++ [k] ++ [k']) := fun k' h => (h2.2 k').1 h
    have hpar := hasParam_false hp kids hkk
    by_cases hk : k = []
    · subst hk
      obtain ⟨hPe, hno⟩ := under_empty hp hu
      subst hPe
      have hkeys : kids.keys = [] := by
        apply List.eq_nil_iff_forall_not_mem.2
        intro k' hk'
        exact hno k' (hkk k' hk')
      have hkids : kids = .nil := by cases kids with | nil => rfl | cons _ _ _ => simp [Kids.keys] at hkeys
      subst hkids
      have hpath : path = ['/'] := by rw [h1]; rfl
      subst hpath
      cases he with
      | bare hb hl hperm =>
        cases hl
        have := hperm.eq_nil
        subst this
        simp only [List.map_nil, List.flatten_nil, List.append_nil]
        exact chunks_methods hp [] (by simp) ['/'] item rfl rfl h2.1
      | object hb _ _ _ => exact absurd (Or.inl rfl) hb
      | func hb _ _ _ _ _ => exact absurd (Or.inl rfl) hb
    · have hnames := under_names hp hk hu
      have hn : ∀ s ∈ P ++ [k], Name s := fun s hs => (hnames s hs).1
      have hne := joined_ne (P ++ [k]) (by simp) hn
      have hparse := parse_converted (P ++ [k]) (by simp) hn
      have hel : elems (P ++ [k]) = P ++ [k] := by simp [elems]
      cases he with
      | bare hb hl hperm =>
        simp only [pathOf, Bool.false_eq_true, if_false, h1] at hb
        exact absurd hb (by simp [hne])
      | func hb hq _ _ _ _ => rw [hpar] at hq; cases hq
      | object hb hq hl hperm =>
        rename_i lits perm
        have hpo : pathOf false path base = joined (P ++ [k]) := by simp [pathOf, h1]
        rw [hpo]
        have hkeys := emitsKids_keys kids lits hl hpar
        have hmeth := chunks_methods hp (P ++ [k]) (fun hc => (hn [] hc).1 rfl) (joined (P ++ [k])) item hparse (by rw [hel])
          (by rw [hel]; exact h2.1)
        have hin := chunk_inner hp (P ++ [k])
          (fun hc => (hn [] hc).1 rfl) (joined (P ++ [k])) item kids _ _
          (by rintro ⟨m, _, r, hr⟩; simp at hr) hmeth hkk lits perm hkeys
          (chunk_kids hp (P ++ [k]) kids lits hkk h4 hl) hperm
        refine ⟨?_, ?_⟩
        · intro s hs
          rcases List.mem_cons.1 hs with rfl | hs
          · simp [Stmt.valid, hparse]
          · exact hin.1 s hs
        · intro h hb' hD
          have ha : exec h (.object (converted (joined (P ++ [k])))) =
              some fun q => if q = P ++ [k] then some .object else if (P ++ [k]).isPrefixOf q then none else h q := by
            simp [exec, hparse, assign, hb']
          have hnotin : ¬ ((∃ m, RawOffered raw (elems (P ++ [k])) m ∧ P ++ [k] ++ [Meth.name m] <+: P ++ [k]) ∨
              ∃ k' ∈ kids.keys, Dom raw (P ++ [k]) k' (P ++ [k])) := by
            rintro (⟨m, _, r, hr⟩ | ⟨k', hk', hd⟩)
            · simp at hr
            · by_cases hk0 : k' = []
              · subst hk0
                have := (under_empty hp (hkk [] hk')).1
                simp at this
              · simp only [Dom, hk0, if_false] at hd
                obtain ⟨r, hr⟩ := hd
                simp at hr
          obtain ⟨h', e2, q2⟩ := hin.2 (fun q => if q = P ++ [k] then some .object else
            if (P ++ [k]).isPrefixOf q then none else h q) (by simp) hnotin
          refine ⟨h', by simp only [execAll, ha]; exact e2, fun q => ⟨?_, ?_⟩⟩
          · intro hd
            simp only [Dom, hk, if_false] at hd
            by_cases hc : (∃ m, RawOffered raw (elems (P ++ [k])) m ∧ P ++ [k] ++ [Meth.name m] <+: q) ∨
                ∃ k' ∈ kids.keys, Dom raw (P ++ [k]) k' q
            · exact (q2 q).1 hc
            · rw [(q2 q).2 hc]
              by_cases e : q = P ++ [k]
              · subst e
                simp only [if_true, goal]
                rw [if_pos]
                exact Or.inr ⟨fun hc => (hn [] hc).1 rfl, hu⟩
              · simp only [e, if_false, (isPrefixOf_iff _ _).2 hd, if_true]
                obtain ⟨r, rfl⟩ := hd
                have hr : r ≠ [] := by rintro rfl; simp at e
                obtain ⟨k', r', rfl⟩ := List.exists_cons_of_ne_nil hr
                have hnk : k' ∉ kids.keys := by
                  intro hin'
                  by_cases hk0 : k' = []
                  · subst hk0
                    have := (under_empty hp (hkk [] hin')).1
                    simp at this
                  · refine hc (Or.inr ⟨k', hin', ?_⟩)
                    simp only [Dom, hk0, if_false]
                    exact ⟨r', by simp⟩
                rw [h2.2 k'] at hnk
                have hnu : ∀ r'', ¬ Under raw (P ++ [k] ++ k' :: r'') := by
                  rintro r'' ⟨d, hd, hpre⟩
                  exact hnk ⟨d, hd, List.IsPrefix.trans ⟨r'', by simp⟩ hpre⟩
                symm
                apply goal_none (by simp) (hnu r')
                intro m p' e' _ ho
                rcases List.eq_nil_or_concat r' with rfl | ⟨r0, x, rfl⟩
                · have e1 := List.append_inj' e' rfl
                  have e2 : k' = m.name := by simpa using e1.2
                  exact hc (Or.inl ⟨m, by rw [e1.1]; exact ho, ⟨[], by rw [e2]; simp⟩⟩)
                · have e'' : (P ++ [k] ++ k' :: r0) ++ [x] = p' ++ [Meth.name m] := by simpa using e'
                  have e1 := (List.append_inj' e'' rfl).1
                  obtain ⟨it, hmem, _⟩ := ho
                  have : elems p' = P ++ [k] ++ k' :: r0 := by rw [← e1]; simp [elems]
                  exact hnu r0 ⟨_, hmem, by rw [this]; exact List.prefix_refl _⟩
          · intro hd
            have hd' : ¬ P ++ [k] <+: q := by simpa only [Dom, hk, if_false] using hd
            have hc : ¬ ((∃ m, RawOffered raw (elems (P ++ [k])) m ∧ P ++ [k] ++ [Meth.name m] <+: q) ∨
                ∃ k' ∈ kids.keys, Dom raw (P ++ [k]) k' q) := by
              rintro (⟨m, _, hpre⟩ | ⟨k', hk', hd2⟩)
              · exact hd' (prefix_snoc_of hpre)
              · by_cases hk0 : k' = []
                · subst hk0
                  have := (under_empty hp (hkk [] hk')).1
                  simp at this
                · simp only [Dom, hk0, if_false] at hd2
                  exact hd' (prefix_snoc_of hd2)
            rw [(q2 q).2 hc]
            have e : q ≠ P ++ [k] := by rintro rfl; exact hd' (List.prefix_refl _)
            have : (P ++ [k]).isPrefixOf q = false := by
              rw [Bool.eq_false_iff]; intro hc; exact hd' ((isPrefixOf_iff _ _).1 hc)
            simp [e, this]

theorem chunk_kids {raw : Raw} (hp : PlainRaw raw) (P : List Str) :
    ∀ (kids : Kids) outs, (∀ k ∈ kids.keys, Under raw (P ++ [k])) → RepKids raw P kids → EmitsKids false false kids outs →
      ∀ x ∈ outs, Chunk raw P (Dom raw P x.1) x.2
  | .nil, outs, _, _, he => by cases he; simp
  | .cons k n rest, outs, hu, ⟨h1, _, h3⟩, he => by
    cases he with
    | take hk hn hr =>
      intro x hx
      rcases List.mem_cons.1 hx with rfl | hx
      · exact chunk_node hp P k (hu k (by simp [Kids.keys])) n _ h1 hn
      · exact chunk_kids hp P rest _ (fun k hk => hu k (by simp [Kids.keys, hk])) h3 hr x hx
    | skip hk hr => exact chunk_kids hp P rest _ (fun k hk => hu k (by simp [Kids.keys, hk])) h3 hr
end

/-- The whole client. -/
theorem root_runs {raw : Raw} (hp : PlainRaw raw) (n : Node) (out : List Stmt) (hr : RepRoot raw n) (he : Emits false n out) :
    ∃ h, load out = some h ∧ ∀ q, h q = goal raw q := by
  obtain ⟨path, base, item, kids⟩ := n
  obtain ⟨h1, h2, h4⟩ := hr
  subst h1
  have hkk : ∀ k' ∈ kids.keys, Under raw ([] ++ [k']) := fun k' h => (h2.2 k').1 h
  have hpar := hasParam_false hp kids hkk
  have hitem : ∀ m, item m = false := by
    intro m
    rw [Bool.eq_false_iff]
    intro hm
    obtain ⟨it, hmem, _⟩ := (h2.1 m).1 hm
    rcases hp _ hmem with h | ⟨h, _⟩
    · cases h
    · exact h rfl
  have hmeth : methods ['/'] item = [] := by simp [methods, hitem]
  cases he with
  | object hb _ _ _ => exact absurd (Or.inl rfl) hb
  | func hb _ _ _ _ _ => exact absurd (Or.inl rfl) hb
  | bare hb hl hperm =>
    rename_i lits perm
    have hpo : pathOf false ['/'] base = ['/'] := rfl
    rw [hpo, hmeth]
    have hin := chunk_inner hp [] (by simp) ['/'] item kids [] (fun _ => False) (by simp)
      ⟨by simp, fun h _ _ => ⟨h, rfl, fun q => ⟨False.elim, fun _ => rfl⟩⟩⟩ hkk lits perm
      (emitsKids_keys kids lits hl hpar) (chunk_kids hp [] kids lits hkk h4 hl) hperm
    have hn : ¬ (False ∨ ∃ k ∈ kids.keys, Dom raw [] k []) := by
      rintro (h | ⟨k, _, hd⟩)
      · exact h
      · by_cases hk0 : k = [] <;> simp [Dom, hk0] at hd
    obtain ⟨h', e, q⟩ := hin.2 emptyClient (by simp [emptyClient]) hn
    refine ⟨h', ?_, fun x => ?_⟩
    · rw [load, if_pos]
      · exact e
      · rw [List.all_eq_true]; exact hin.1
    · by_cases hc : False ∨ ∃ k ∈ kids.keys, Dom raw [] k x
      · exact (q x).1 hc
      · rw [(q x).2 hc]
        cases x with
        | nil => simp [emptyClient, goal]
        | cons k r =>
          have hnot : ∀ r, k ≠ [] → ¬ Under raw (k :: r) := by
            rintro r hk0 ⟨d, hd, hpre⟩
            have hk : k ∈ kids.keys := (h2.2 k).2 ⟨d, hd, List.IsPrefix.trans ⟨r, by simp⟩ hpre⟩
            exact hc (Or.inr ⟨k, hk, by simp only [Dom, hk0, if_false]; exact ⟨_, rfl⟩⟩)
          have hm : ∀ m p, k :: r = p ++ [Meth.name m] → [] ∉ p → ¬ RawOffered raw (elems p) m := by
            rintro m p e hP ho
            cases p with
            | nil =>
              have hk : ([] : Str) ∈ kids.keys := by
                obtain ⟨it, hmem, _⟩ := ho
                exact (h2.2 []).2 ⟨_, hmem, List.prefix_refl _⟩
              exact hc (Or.inr ⟨[], hk, by simp only [Dom, if_true]; exact ⟨m, ho, by rw [e]; exact List.prefix_refl _⟩⟩)
            | cons a p =>
              obtain ⟨it, hmem, _⟩ := ho
              simp only [List.cons_append, List.cons.injEq] at e
              obtain ⟨rfl, e⟩ := e
              have hk0 : k ≠ [] := by rintro rfl; simp at hP
              exact hnot p hk0 ⟨_, hmem, by simp [elems]⟩
          have hx : goal raw (k :: r) = none := by
            have hcond : ¬ (k :: r = [] ∨ ([] ∉ k :: r ∧ Under raw (k :: r))) := by
              rintro (h | ⟨h5, h6⟩)
              · cases h
              · exact hnot r (by rintro rfl; simp at h5) h6
            have h5 : ¬ ∃ m, ∃ p, k :: r = p ++ [Meth.name m] ∧ [] ∉ p ∧ RawOffered raw (elems p) m := by
              rintro ⟨m, p, e, hP, h⟩; exact hm m p e hP h
            simp only [goal, if_neg hcond, dif_neg h5]
          simp [hx, emptyClient]

end Verif.Sdk
