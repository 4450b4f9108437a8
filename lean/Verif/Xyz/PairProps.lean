import Verif.Xyz.PairModel
import Verif.Xyz.TaggedJsonProps
/-!
# Tagged unions as pairs (C225)

The tags of a union are given by their parts, so that what a case is called is said without cutting strings.
-/
namespace Verif.Xyz

/-- The `json` tag of a case, by its parts: `name?key=val,options`. -/
structure KeyTag where
  /-- The name, may be empty. -/
  name : Str
  /-- The constant that tells the case, if any: its key and value. -/
  rule : Option (Str × Str)
  /-- What follows the comma, if there is one. -/
  opts : Option Str

/-- How a case is labelled. -/
inductive Label where
  /-- By a `txt` tag alone. -/
  | text (t : Str)
  /-- By a `json` tag alone. -/
  | json (k : KeyTag)

/-- A case of a union: a field name and a label. -/
structure Field where
  /-- The field's name. -/
  name : Str
  /-- The label. -/
  label : Label

/-- The text of the rule of a tag. -/
def KeyTag.ruleText (k : KeyTag) : Str :=
  match k.rule with
  | none => []
  | some r => '?' :: (r.1 ++ '=' :: r.2)

/-- The text of the options of a tag. -/
def KeyTag.optsText (k : KeyTag) : Str :=
  match k.opts with
  | none => []
  | some o => ',' :: o

/-- The text of a tag. -/
def KeyTag.toText (k : KeyTag) : Str := k.name ++ k.ruleText ++ k.optsText

/-- The field as it is declared. -/
def Field.decl (f : Field) : PCase :=
  match f.label with
  | .text t => { name := f.name, txt := some t, json := [] }
  | .json k => { name := f.name, txt := none, json := k.toText }

/-- The tag is not empty and its parts can be told apart. -/
def KeyTag.Good (k : KeyTag) : Prop :=
  k.toText ≠ [] ∧ ',' ∉ k.name ∧ '?' ∉ k.name ∧
    ∀ r, k.rule = some r → r.1 ≠ [] ∧ r.2 ≠ [] ∧ ',' ∉ r.1 ∧ '=' ∉ r.1 ∧ ',' ∉ r.2

/-- A text without verbs, or a good tag of a field whose name is an identifier. -/
def Field.Good (f : Field) : Prop :=
  ',' ∉ f.name ∧ '?' ∉ f.name ∧
    match f.label with
    | .text t => '%' ∉ t
    | .json k => k.Good

/-- What a case is called: its text; the constant of its tag; the name in its tag; else the field's name. -/
def Field.key (f : Field) : Str :=
  match f.label with
  | .text t => t
  | .json { rule := some r, .. } => r.2
  | .json { name := [], rule := none, .. } => f.name
  | .json { name := c :: s, rule := none, .. } => c :: s

/-- What a case answers to: its key and, if that is a constant, also the name in its tag. -/
def Field.AnswersTo (f : Field) (s : Str) : Prop :=
  s = f.key ∨ ∃ k, f.label = .json k ∧ k.rule ≠ none ∧ s = k.name

/-- The storage goes into the pair. -/
def Field.Stores (f : Field) : Prop := ∃ k, f.label = .json k

theorem cut_comma_tag (k : KeyTag) (h : k.Good) : (cut ',' k.toText).1 = k.name ++ k.ruleText := by
  obtain ⟨_, h1, _, h3⟩ := h
  have hn : ',' ∉ k.name ++ k.ruleText := by
    unfold KeyTag.ruleText
    cases hr : k.rule with
    | none => simpa using h1
    | some r =>
      obtain ⟨_, _, a, _, b⟩ := h3 r hr
      simp [h1, a, b]
  unfold KeyTag.toText KeyTag.optsText
  cases k.opts with
  | none => simp only [List.append_nil]; rw [cut_none _ _ hn]
  | some o => exact (congrArg Prod.fst (cut_at ',' _ o hn))

theorem hasText_iff (c : PCase) : c.hasText = c.txt.isSome := by
  unfold PCase.hasText PCase.zero PCase.text
  cases c.txt with
  | none => simp
  | some t => cases t <;> simp

/-- The parts the code finds are those the tag was written of. -/
theorem decl_parts (f : Field) (k : KeyTag) (hl : f.label = .json k) (h : f.Good) :
    (f.decl.ruleKey ≠ [] ∧ f.decl.ruleVal ≠ [] ↔ k.rule ≠ none) ∧
    (∀ r, k.rule = some r → f.decl.ruleVal = r.2 ∧ f.decl.label = k.name) ∧
    (k.rule = none → f.decl.label = f.key) := by
  obtain ⟨g1, g2, g3⟩ := h
  rw [hl] at g3
  have gk : k.Good := g3
  have hb : f.decl.base = if k.name ++ k.ruleText = [] then f.name else k.name ++ k.ruleText := by
    unfold PCase.base Field.decl
    rw [hl]
    dsimp only
    rw [cut_comma_tag k gk]
  cases hr : k.rule with
  | none =>
    have he : k.ruleText = [] := by unfold KeyTag.ruleText; rw [hr]
    rw [he, List.append_nil] at hb
    have hq : '?' ∉ f.decl.base := by
      rw [hb]; split
      · exact g2
      · exact gk.2.2.1
    have hkey : f.key = f.decl.base := by
      rw [hb]
      unfold Field.key
      rw [hl]
      obtain ⟨n, ru, o⟩ := k
      cases hr
      cases n <;> rfl
    refine ⟨?_, ?_, ?_⟩
    · unfold PCase.ruleKey
      rw [cut_none _ _ hq]
      simp [cut]
    · intro r h; cases h
    · intro _
      unfold PCase.label
      rw [cut_none _ _ hq, hkey]
  | some r =>
    obtain ⟨r1, r2, r3, r4, r5⟩ := gk.2.2.2 r hr
    have he : k.ruleText = '?' :: (r.1 ++ '=' :: r.2) := by unfold KeyTag.ruleText; rw [hr]
    rw [he, if_neg (by simp)] at hb
    have c1 : cut '?' f.decl.base = (k.name, r.1 ++ '=' :: r.2, true) := by
      rw [hb]; exact cut_at _ _ _ gk.2.2.1
    have c2 : cut '=' (cut '?' f.decl.base).2.1 = (r.1, r.2, true) := by
      rw [c1]; exact cut_at _ _ _ r4
    refine ⟨?_, ?_, ?_⟩
    · unfold PCase.ruleKey PCase.ruleVal
      rw [c2]
      simp [r1, r2]
    · intro r' h
      cases h
      unfold PCase.ruleVal PCase.label
      rw [c2, c1]
      exact ⟨rfl, rfl⟩
    · intro h; cases h

theorem key_of_rule (f : Field) (k : KeyTag) (r : Str × Str) (hl : f.label = .json k) (hr : k.rule = some r) :
    f.key = r.2 := by
  unfold Field.key
  rw [hl]
  obtain ⟨n, ru, o⟩ := k
  cases hr
  rfl

theorem takes_iff (f : Field) (h : f.Good) (s : Str) : takes f.decl s = true ↔ f.AnswersTo s := by
  cases hl : f.label with
  | text t =>
    have e : f.decl = { name := f.name, txt := some t, json := [] } := by unfold Field.decl; rw [hl]
    have ek : f.key = t := by unfold Field.key; rw [hl]
    unfold takes Field.AnswersTo
    rw [hasText_iff, e, ek, hl]
    simp [PCase.text, eq_comm]
  | json k =>
    obtain ⟨p1, p2, p3⟩ := decl_parts f k hl h
    have et : f.decl.txt = none := by unfold Field.decl; rw [hl]
    have ej : f.decl.json ≠ [] := by
      have := h.2.2
      rw [hl] at this
      unfold Field.decl; rw [hl]
      exact this.1
    unfold takes Field.AnswersTo
    rw [hasText_iff, et, if_neg (by simp), if_neg ej, hl]
    cases hr : k.rule with
    | none =>
      have hno : ¬(f.decl.ruleKey ≠ [] ∧ f.decl.ruleVal ≠ []) := fun hh => p1.mp hh hr
      rw [if_neg (by simp only [Bool.and_eq_true, decide_eq_true_eq]; exact fun hh => hno hh.1), p3 hr]
      constructor
      · intro hh; exact .inl (by simpa [eq_comm] using hh)
      · intro hh
        rcases hh with hh | ⟨k', hk, hne, _⟩
        · simp [hh]
        · cases hk; exact absurd hr hne
    | some r =>
      have hyes := p1.mpr (by rw [hr]; simp)
      obtain ⟨q1, q2⟩ := p2 r hr
      rw [key_of_rule f k r hl hr, q1, q2]
      rw [q1] at hyes
      constructor
      · intro hh
        split at hh
        · rename_i h1
          simp only [Bool.and_eq_true, decide_eq_true_eq] at h1
          exact .inl h1.2.symm
        · exact .inr ⟨k, rfl, by rw [hr]; simp, by simpa [eq_comm] using hh⟩
      · intro hh
        split
        · rfl
        · rename_i h1
          rcases hh with hh | ⟨k', hk, _, hn⟩
          · exact absurd (by simp [hyes.1, hyes.2, hh]) h1
          · cases hk; simp [hn]

theorem firstTaking_some (s : Str) : ∀ (l : List PCase) (b i : Nat), firstTaking s b l = some i ↔
    ∃ j c, i = b + j ∧ l[j]? = some c ∧ takes c s = true ∧ ∀ (m : Nat) (d : PCase), m < j → l[m]? = some d → takes d s = false
  | [], b, i => by simp [firstTaking]
  | c :: l, b, i => by
    unfold firstTaking
    split
    · rename_i hc
      constructor
      · intro h
        cases h
        exact ⟨0, c, rfl, rfl, hc, fun m _ hm => absurd hm (Nat.not_lt_zero m)⟩
      · rintro ⟨j, d, rfl, hd, ht, hall⟩
        cases j with
        | zero => rfl
        | succ j => have := hall 0 c (Nat.succ_pos j) rfl; rw [hc] at this; cases this
    · rename_i hc
      rw [firstTaking_some s l (b + 1) i]
      constructor
      · rintro ⟨j, d, rfl, hd, ht, hall⟩
        refine ⟨j + 1, d, by omega, by simpa using hd, ht, ?_⟩
        intro m e hm he
        cases m with
        | zero => simp at he; subst he; simpa using hc
        | succ m => exact hall m e (by omega) (by simpa using he)
      · rintro ⟨j, d, rfl, hd, ht, hall⟩
        cases j with
        | zero => simp at hd; subst hd; exact absurd ht hc
        | succ j =>
          exact ⟨j, d, by omega, by simpa using hd, ht, fun m e hm he => hall (m + 1) e (by omega) (by simpa using he)⟩

/-- The union as it is declared. -/
def declared (fs : List Field) : List PCase := fs.map Field.decl

/-- The first case that answers to the key, if there is one: nothing comes before it. -/
def FirstAnswer (fs : List Field) (s : Str) (i : Nat) : Prop :=
  (∃ f, fs[i]? = some f ∧ f.AnswersTo s) ∧ ∀ (j : Nat) (f : Field), j < i → fs[j]? = some f → ¬ f.AnswersTo s

/-- C225 (part): a pair becomes a value of the first case that answers to its key, with the pair's storage. -/
theorem pair_read_iff {S : Type} (fs : List Field) (hg : ∀ f ∈ fs, f.Good) (v : PVar S) (s : Str) (st : S) (i : Nat) :
    unmarshalPair (declared fs) v (s, st) = ({ tag := some i, ram := st }, true) ↔ FirstAnswer fs s i := by
  have key : firstTaking s 0 (declared fs) = some i ↔ FirstAnswer fs s i := by
    rw [firstTaking_some]
    constructor
    · rintro ⟨j, c, rfl, hc, ht, hall⟩
      rw [declared, List.getElem?_map] at hc
      cases hf : fs[j]? with
      | none => rw [hf] at hc; cases hc
      | some f =>
        rw [hf] at hc; cases hc
        rw [Nat.zero_add]
        refine ⟨⟨f, hf, (takes_iff f (hg f (List.mem_of_getElem? hf)) s).mp ht⟩, ?_⟩
        intro m g hm hgm ha
        have := hall m g.decl hm (by rw [declared, List.getElem?_map, hgm]; rfl)
        rw [(takes_iff g (hg g (List.mem_of_getElem? hgm)) s).mpr ha] at this
        cases this
    · rintro ⟨⟨f, hf, ha⟩, hall⟩
      refine ⟨i, f.decl, (Nat.zero_add i).symm, by rw [declared, List.getElem?_map, hf]; rfl,
        (takes_iff f (hg f (List.mem_of_getElem? hf)) s).mpr ha, ?_⟩
      intro m d hm hd
      rw [declared, List.getElem?_map] at hd
      cases hgm : fs[m]? with
      | none => rw [hgm] at hd; cases hd
      | some g =>
        rw [hgm] at hd; cases hd
        cases ht : takes g.decl s with
        | false => rfl
        | true => exact absurd ((takes_iff g (hg g (List.mem_of_getElem? hgm)) s).mp ht) (hall m g hm hgm)
  rw [← key]
  unfold unmarshalPair
  cases firstTaking s 0 (declared fs) <;> simp

/-- C225 (part): a pair whose key no case answers to is refused, and the value is left as it was. -/
theorem pair_refused {S : Type} (fs : List Field) (hg : ∀ f ∈ fs, f.Good) (v : PVar S) (s : Str) (st : S)
    (h : ∀ f ∈ fs, ¬ f.AnswersTo s) : unmarshalPair (declared fs) v (s, st) = (v, false) := by
  cases hr : firstTaking s 0 (declared fs) with
  | none => unfold unmarshalPair; rw [hr]
  | some i =>
    have : unmarshalPair (declared fs) v (s, st) = ({ tag := some i, ram := st }, true) := by
      unfold unmarshalPair; rw [hr]
    obtain ⟨⟨f, hf, ha⟩, _⟩ := (pair_read_iff fs hg v s st i).mp this
    exact absurd ha (h f (List.mem_of_getElem? hf))

/-- C225 (part): the pair of a value has the key of its case, and the storage of the value unless the case is told by a text. -/
theorem pair_written {S : Type} (sprintf : Str → Nat → S → Str) (zero : S) (fs : List Field) (i : Nat) (f : Field)
    (hf : fs[i]? = some f) (hg : f.Good) (ram : S) :
    (f.Stores → marshalPair sprintf zero (declared fs) { tag := some i, ram := ram } = .ok (f.key, ram)) ∧
    (¬ f.Stores → marshalPair sprintf zero (declared fs) { tag := some i, ram := ram } = .ok (f.key, zero)) ∧
    caseKey f.decl = some f.key := by
  have hc : (declared fs)[i]? = some f.decl := by rw [declared, List.getElem?_map, hf]; rfl
  cases hl : f.label with
  | text t =>
    have ek : f.key = t := by unfold Field.key; rw [hl]
    have e : f.decl = { name := f.name, txt := some t, json := [] } := by unfold Field.decl; rw [hl]
    have hp : '%' ∉ t := by have := hg.2.2; rw [hl] at this; exact this
    refine ⟨?_, ?_, ?_⟩
    · rintro ⟨k, hk⟩; rw [hl] at hk; cases hk
    · intro _
      unfold marshalPair
      simp only [hc]
      rw [hasText_iff, e, ek]
      have : PCase.fmts { name := f.name, txt := some t, json := [] } = false := by
        simp [PCase.fmts, PCase.text, hp]
      simp [this, PCase.text]
    · unfold caseKey
      rw [hasText_iff, e, ek]
      simp [PCase.text]
  | json k =>
    obtain ⟨p1, p2, p3⟩ := decl_parts f k hl hg
    have et : f.decl.txt = none := by unfold Field.decl; rw [hl]
    have ej : f.decl.json ≠ [] := by
      have := hg.2.2
      rw [hl] at this
      unfold Field.decl; rw [hl]
      exact this.1
    have core : (if f.decl.ruleKey ≠ [] ∧ f.decl.ruleVal ≠ [] then f.decl.ruleVal else f.decl.label) = f.key := by
      cases hr : k.rule with
      | none => rw [if_neg (fun hh => p1.mp hh hr), p3 hr]
      | some r => rw [if_pos (p1.mpr (by rw [hr]; simp)), (p2 r hr).1, key_of_rule f k r hl hr]
    refine ⟨?_, ?_, ?_⟩
    · intro _
      unfold marshalPair
      simp only [hc]
      rw [hasText_iff, et, if_neg (by simp), if_neg ej, ← core]
      split <;> rfl
    · intro h; exact absurd ⟨k, hl⟩ h
    · unfold caseKey
      rw [hasText_iff, et, if_neg (by simp), if_neg ej, ← core]
      split <;> rfl

/-- C225: in a union whose cases have different keys, a value that is written as a pair is restored from it. -/
def PairClaim : Prop :=
  ∀ (S : Type) (sprintf : Str → Nat → S → Str) (zero : S) (fs : List Field),
    (∀ f ∈ fs, f.Good) →
    (∀ (i j : Nat) (f g : Field), fs[i]? = some f → fs[j]? = some g → f.key = g.key → i = j) →
    ∀ (i : Nat) (ram : S) (p : Str × S) (old : PVar S),
      marshalPair sprintf zero (declared fs) { tag := some i, ram := ram } = .ok p →
      unmarshalPair (declared fs) old p = ({ tag := some i, ram := ram }, true)

/-- C225 (part): so it is for the cases with a `json` tag, if no earlier case has the key as the name beside its constant;
and for the cases with a text, if they store nothing. -/
theorem pair_round_trip_partial {S : Type} (sprintf : Str → Nat → S → Str) (zero : S) (fs : List Field)
    (hg : ∀ f ∈ fs, f.Good)
    (hd : ∀ (i j : Nat) (f g : Field), fs[i]? = some f → fs[j]? = some g → f.key = g.key → i = j)
    (i : Nat) (f : Field) (hf : fs[i]? = some f) (ram : S) (old : PVar S)
    (hs : f.Stores ∨ ram = zero)
    (hn : ∀ (j : Nat) (g : Field) (k : KeyTag), j < i → fs[j]? = some g → g.label = .json k → k.rule ≠ none → k.name ≠ f.key) :
    ∃ p, marshalPair sprintf zero (declared fs) { tag := some i, ram := ram } = .ok p ∧
      unmarshalPair (declared fs) old p = ({ tag := some i, ram := ram }, true) := by
  have first : FirstAnswer fs f.key i := by
    refine ⟨⟨f, hf, .inl rfl⟩, ?_⟩
    rintro j g hj hgj (ha | ⟨k, hk, hr, hname⟩)
    · have := hd i j f g hf hgj ha
      omega
    · exact hn j g k hj hgj hk hr hname.symm
  obtain ⟨w1, w2, _⟩ := pair_written sprintf zero fs i f hf (hg f (List.mem_of_getElem? hf)) ram
  by_cases hst : f.Stores
  · exact ⟨_, w1 hst, (pair_read_iff fs hg old f.key ram i).mpr first⟩
  · have hz : ram = zero := hs.resolve_left hst
    refine ⟨_, w2 hst, ?_⟩
    rw [hz]
    exact (pair_read_iff fs hg old f.key zero i).mpr first

/-- A case with a text. -/
def txtField (n t : Str) : Field := { name := n, label := .text t }

/-- A case with a `json` tag that is a name. -/
def jsonField (n t : Str) : Field := { name := n, label := .json { name := t, rule := none, opts := none } }

/-- A case with a constant. -/
def constField (n t k v : Str) : Field := { name := n, label := .json { name := t, rule := some (k, v), opts := none } }

theorem txtField_good {n t : Str} (h : ',' ∉ n ∧ '?' ∉ n ∧ '%' ∉ t) : (txtField n t).Good := h

theorem jsonField_good {n t : Str} (h : (',' ∉ n ∧ '?' ∉ n) ∧ t ≠ [] ∧ ',' ∉ t ∧ '?' ∉ t) : (jsonField n t).Good :=
  ⟨h.1.1, h.1.2, by simpa [KeyTag.toText] using fun a _ _ => h.2.1 a, h.2.2.1, h.2.2.2, fun r hr => by cases hr⟩

theorem constField_good {n t k v : Str} (h : (',' ∉ n ∧ '?' ∉ n) ∧ (',' ∉ t ∧ '?' ∉ t) ∧ k ≠ [] ∧ v ≠ [] ∧ ',' ∉ k ∧ '=' ∉ k ∧ ',' ∉ v) :
    (constField n t k v).Good :=
  ⟨h.1.1, h.1.2, by simp [KeyTag.toText, KeyTag.ruleText], h.2.1.1, h.2.1.2, fun r hr => by cases hr; exact h.2.2⟩

/-- C225: it is not so: the name beside an earlier case's constant shadows the key of a later case. -/
theorem pair_round_trip_fails : ¬ PairClaim := by
  intro h
  have := h Nat (fun _ _ _ => []) 0 [constField ['A'] ['b'] ['t'] ['a'], jsonField ['B'] ['b']]
    (by
      intro f hf
      simp only [List.mem_cons, List.not_mem_nil, or_false] at hf
      rcases hf with rfl | rfl
      · exact constField_good (by decide)
      · exact jsonField_good (by decide))
    (by
      intro i j f g hi hj hk
      match i, j, hi, hj with
      | 0, 0, _, _ => rfl
      | 1, 1, _, _ => rfl
      | 0, 1, hi, hj => cases hi; cases hj; exact absurd hk (by decide)
      | 1, 0, hi, hj => cases hi; cases hj; exact absurd hk (by decide)
      | i + 2, _, hi, _ => simp at hi
      | 0, j + 2, _, hj => simp at hj
      | 1, j + 2, _, hj => simp at hj)
    1 7 (['b'], 7) { tag := none, ram := 0 } (by rfl)
  have h1 : (unmarshalPair (declared [constField ['A'] ['b'] ['t'] ['a'], jsonField ['B'] ['b']])
    ({ tag := none, ram := 0 } : PVar Nat) (['b'], 7)).1.tag = some 0 := by rfl
  rw [this] at h1
  cases h1

/-- C225: a case with a text loses what it stores: the pair has the zero storage whatever the value. -/
theorem text_storage_lost {S : Type} (sprintf : Str → Nat → S → Str) (zero ram : S) (fs : List Field) (i : Nat) (n t : Str)
    (hf : fs[i]? = some (txtField n t)) (hg : (txtField n t).Good) :
    marshalPair sprintf zero (declared fs) { tag := some i, ram := ram } = .ok (t, zero) :=
  (pair_written sprintf zero fs i _ hf hg ram).2.1 (by rintro ⟨k, hk⟩; cases hk)

/-- C225: a union that was never assigned cannot be written as a pair: the call panics. -/
theorem unset_pair_panics {S : Type} (sprintf : Str → Nat → S → Str) (zero ram : S) (cases : List PCase) :
    marshalPair sprintf zero cases { tag := none, ram := ram } = .panic := rfl

/-- C225: the documentation of `Key` says it is what `MarshalPair` returns. -/
def KeyClaim : Prop :=
  ∀ (S : Type) (sprintf : Str → Nat → S → Str) (zero ram : S) (cases : List PCase) (i : Nat) (c : PCase) (k : Str),
    cases[i]? = some c → caseKey c = some k →
      ∃ st, marshalPair sprintf zero cases { tag := some i, ram := ram } = .ok (k, st)

/-- It is not, for a text with verbs. -/
theorem key_fails : ¬ KeyClaim := by
  intro h
  obtain ⟨st, hst⟩ := h Nat (fun _ _ n => List.replicate n 'x') 0 0 [{ name := ['A'], txt := some ['%', 'v'], json := [] }] 0
    { name := ['A'], txt := some ['%', 'v'], json := [] } ['%', 'v'] rfl rfl
  have : marshalPair (fun _ _ n => List.replicate n 'x') 0 [{ name := ['A'], txt := some ['%', 'v'], json := [] }]
    ({ tag := some 0, ram := 0 } : PVar Nat) = .ok ([], 0) := by rfl
  rw [this] at hst
  injection hst with h1
  cases h1

/-- C225: cases with tags of any other kind have an error for `Key` exactly when `MarshalPair` has, and the same key otherwise. -/
theorem key_agrees {S : Type} (sprintf : Str → Nat → S → Str) (zero ram : S) (cases : List PCase) (i : Nat) (c : PCase)
    (hc : cases[i]? = some c) (hv : '%' ∉ c.txt.getD []) :
    (∀ k, caseKey c = some k ↔ ∃ st, marshalPair sprintf zero cases { tag := some i, ram := ram } = .ok (k, st)) ∧
    (caseKey c = none ↔ marshalPair sprintf zero cases { tag := some i, ram := ram } = .err) := by
  have hf : c.fmts = false := by simp [PCase.fmts, PCase.text, hv]
  unfold caseKey marshalPair
  simp only [hc, hf]
  cases c.hasText <;> simp
  by_cases hj : c.json = [] <;> simp [hj]
  by_cases hr : c.ruleKey = [] <;> by_cases hv : c.ruleVal = [] <;> simp [hr, hv]

/-- C225: a case with neither a text nor a `json` tag has no pair and no key. -/
theorem untagged_no_pair {S : Type} (sprintf : Str → Nat → S → Str) (zero ram : S) (cases : List PCase) (i : Nat) (n : Str)
    (hc : cases[i]? = some { name := n, txt := none, json := [] }) :
    marshalPair sprintf zero cases { tag := some i, ram := ram } = .err := by
  unfold marshalPair
  simp only [hc]
  rw [hasText_iff]
  rfl

/-- A union of all kinds of cases, each restored. -/
example : ∀ i < 3, ∃ p, marshalPair (fun _ _ _ => []) 0 (declared [constField ['A'] ['x'] ['t'] ['a'], jsonField ['B'] ['b'], txtField ['C'] ['c']])
      { tag := some i, ram := 0 } = .ok p ∧
    unmarshalPair (declared [constField ['A'] ['x'] ['t'] ['a'], jsonField ['B'] ['b'], txtField ['C'] ['c']])
      ({ tag := none, ram := 5 } : PVar Nat) p = ({ tag := some i, ram := 0 }, true) := by
  intro i hi
  match i, hi with
  | 0, _ => exact ⟨(['a'], 0), rfl, rfl⟩
  | 1, _ => exact ⟨(['b'], 0), rfl, rfl⟩
  | 2, _ => exact ⟨(['c'], 0), rfl, rfl⟩

/-- Its cases are good. -/
example : ∀ f ∈ [constField ['A'] ['x'] ['t'] ['a'], jsonField ['B'] ['b'], txtField ['C'] ['c']], f.Good := by
  intro f hf
  simp only [List.mem_cons, List.not_mem_nil, or_false] at hf
  rcases hf with rfl | rfl | rfl
  · exact constField_good (by decide)
  · exact jsonField_good (by decide)
  · exact txtField_good (by decide)

end Verif.Xyz
