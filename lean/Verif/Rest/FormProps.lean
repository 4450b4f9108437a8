import Verif.Rest.FormSpec
/-!
# C197: forms
-/
namespace Verif.Rest.Form

theorem hasPrefix_iff : ∀ (l p : Text), hasPrefix l p = true ↔ p <+: l
  | l, [] => by cases l <;> simp [hasPrefix]
  | [], p :: ps => by simp [hasPrefix]
  | c :: cs, p :: ps => by
    rw [hasPrefix, Bool.and_eq_true, hasPrefix_iff cs ps, beq_iff_eq, List.cons_prefix_cons]
    exact ⟨fun h => ⟨h.1.symm, h.2⟩, fun h => ⟨h.1.symm, h.2⟩⟩

theorem contains_iff : ∀ (l p : Text), contains l p = true ↔ p <:+: l
  | [], p => by simp [contains]
  | c :: cs, p => by
    rw [contains, Bool.or_eq_true, hasPrefix_iff, contains_iff cs p, List.infix_cons_iff]

theorem infix_sep (p : Text) (x : Char) (hx : x ∉ p) (b : Text) :
    ∀ a : Text, p <:+: a ++ x :: b ↔ p <:+: a ∨ p <:+: b := by
  intro a
  constructor
  · intro h
    induction a with
    | nil =>
      rw [List.nil_append, List.infix_cons_iff] at h
      rcases h with h | h
      · cases p with
        | nil => exact Or.inl (List.nil_infix)
        | cons c cs => exact absurd (List.cons_prefix_cons.1 h).1 (fun e => hx (by simp [e]))
      · exact Or.inr h
    | cons c cs ih =>
      rw [List.cons_append, List.infix_cons_iff] at h
      rcases h with h | h
      · left
        rw [← List.cons_append] at h
        by_cases hl : p.length ≤ (c :: cs).length
        · exact (List.prefix_of_prefix_length_le h (List.prefix_append _ _) hl).isInfix
        · exfalso
          obtain ⟨t, ht⟩ := List.prefix_of_prefix_length_le (List.prefix_append (c :: cs) (x :: b)) h (by omega)
          rw [← ht] at h hl
          cases t with
          | nil => simp at hl
          | cons d ds =>
            rw [List.prefix_append_right_inj] at h
            have := (List.cons_prefix_cons.1 h).1
            apply hx
            rw [← ht, ← this]
            simp
      · rcases ih h with h | h
        · exact Or.inl (List.infix_cons h)
        · exact Or.inr h
  · rintro (⟨s, t, h⟩ | ⟨s, t, h⟩)
    · exact ⟨s, t ++ x :: b, by rw [← List.append_assoc, h]⟩
    · exact ⟨a ++ x :: s, t, by rw [← h]; simp⟩

theorem infix_split (p : Text) (hx : ',' ∉ p) : ∀ (n : Nat) (l : Text), l.length ≤ n →
    (p <:+: l ↔ ∃ o ∈ l.splitOn ',', p <:+: o)
  | n, l => by
    intro hl
    by_cases h : ',' ∈ l
    · obtain ⟨xs, as, e, hn⟩ := List.eq_append_cons_of_mem h
      cases n with
      | zero => rw [e] at hl; simp at hl
      | succ n =>
        rw [e, List.splitOn_append_cons_self_of_not_mem hn, infix_sep p ',' hx,
          infix_split p hx n as (by rw [e] at hl; simp at hl; omega)]
        simp
    · rw [List.splitOn_eq_singleton h]
      simp

theorem cut_fst : ∀ t : Text, (cut t).1 = Spec.jsonName t
  | [] => rfl
  | c :: cs => by
    unfold cut Spec.jsonName
    by_cases h : c = ','
    · simp [h]
    · simp only [h, if_false, List.takeWhile_cons, ne_eq, not_false_eq_true, decide_true, if_true]
      rw [cut_fst cs]; rfl

theorem cut_snd : ∀ t : Text, Spec.options t = if ',' ∈ t then (cut t).2.splitOn ',' else []
  | [] => rfl
  | c :: cs => by
    have ih := cut_snd cs
    unfold Spec.options at ih ⊢
    rw [List.splitOn_cons_eq_if_modifyHead]
    unfold cut
    by_cases h : c = ','
    · simp [h]
    · have h' : ¬',' = c := fun e => h e.symm
      simp only [h, beq_iff_eq, if_false, List.mem_cons, h', false_or]
      rw [← ih]
      cases List.splitOn ',' cs <;> rfl

/-- The options of a tag are written as `encoding/json` knows them: none has `omitempty` or `omitzero` in it but is another. -/
def Tidy (tag : Text) : Prop :=
  ∀ o ∈ Spec.options tag, (omitempty <:+: o → o = omitempty) ∧ (omitzero <:+: o → o = omitzero)

theorem cut_without : ∀ t : Text, ',' ∉ t → (cut t).2 = []
  | [], _ => rfl
  | c :: cs, h => by
    unfold cut
    rw [if_neg (by intro e; exact h (by simp [e]))]
    exact cut_without cs (fun e => h (by simp [e]))

theorem contains_option (tag p : Text) (hx : ',' ∉ p) (hp : p ≠ [])
    (ht : ∀ o ∈ Spec.options tag, p <:+: o → o = p) : contains (cut tag).2 p = true ↔ p ∈ Spec.options tag := by
  rw [contains_iff, cut_snd] at *
  by_cases h : ',' ∈ tag
  · rw [if_pos h] at ht ⊢
    rw [infix_split p hx _ _ (Nat.le_refl _)]
    constructor
    · rintro ⟨o, ho, hi⟩; rw [← ht o ho hi]; exact ho
    · intro h; exact ⟨p, h, List.infix_refl _⟩
  · rw [if_neg h, cut_without tag h]
    simp [hp]

/-- Fields of the proved case: exported, not excluded by `json:"-"`, with a name that is not empty or `_`. -/
structure Field.Plain (f : Field) : Prop where
  exported : f.exported = true
  kept : f.json ≠ ['-']
  named : f.name ≠ []
  inlined : Spec.nameOf f ≠ ['_']
  tidy : Tidy f.json

theorem fname_eq (f : Field) : fname f = Spec.nameOf f := by
  unfold fname Spec.nameOf
  rw [cut_fst]
  by_cases h : f.json = []
  · simp [h, Spec.jsonName]
  · simp [h]

theorem Field.Plain.nonempty {f : Field} (h : f.Plain) : Spec.nameOf f ≠ [] := by
  unfold Spec.nameOf
  split
  · assumption
  · split
    · assumption
    · exact h.named

theorem skipped_iff (f : Field) (h : f.Plain) : skipped f = true ↔ Spec.leftOut f := by
  unfold skipped Spec.leftOut
  have he : (f.exported = false) = False := by simp [h.exported]
  have hk : (f.json = ['-']) = False := by simp [h.kept]
  rw [he, hk, false_or, false_or, Bool.and_eq_true, Bool.and_eq_true, Bool.or_eq_true,
    contains_option f.json omitempty (by decide) (by decide) (fun o ho => (h.tidy o ho).1),
    contains_option f.json omitzero (by decide) (by decide) (fun o ho => (h.tidy o ho).2)]
  constructor
  · rintro ⟨⟨_, h⟩, z⟩; exact ⟨z, h⟩
  · rintro ⟨z, h⟩
    refine ⟨⟨?_, h⟩, z⟩
    by_cases e : f.json = []
    · rw [e] at h; exact absurd h (by decide)
    · simp [e]

mutual
/-- Values of the proved case: no nil pointers and no marshaler that fails; maps only where there is no name yet (`top`), with keys that are
not empty or `_`; files (that can seek) of 512 bytes or more that have not been read from. -/
def Val.Plain (top : Bool) : Val → Prop
  | .marshaler t => t.isSome
  | .reader r => r.file.isSome → r.seeker = true → r.pos = 0 ∧ 512 ≤ r.bytes.length
  | .struct fs => fs.Plain
  | .map es => top = true ∧ es.Plain
  | .nilPointer => False
  | .pointer v => v.Plain top
  | .scalar _ => True
/-- Fields of the proved case. -/
def Fields.Plain : Fields → Prop
  | .nil => True
  | .cons f v rest => f.Plain ∧ v.Plain false ∧ rest.Plain
/-- Entries of the proved case. -/
def Entries.Plain : Entries → Prop
  | .nil => True
  | .cons k v rest => k ≠ [] ∧ k ≠ ['_'] ∧ v.Plain false ∧ rest.Plain
end

/-- A leaf under a name that is already dotted. -/
def underName (name : Text) (l : Spec.Leaf) : Part :=
  ⟨if l.path = [] then name else prefixOf name ++ Spec.dotted l.path, l.file, l.ctype, l.content⟩

theorem underName_nil (l : Spec.Leaf) : underName [] l = Spec.part l := by
  unfold underName Spec.part
  cases l.path with
  | nil => rfl
  | cons a b => simp [prefixOf]

theorem underName_under (name n : Text) (hn : n ≠ []) (hu : prefixOf name ++ n ≠ ['_']) (l : Spec.Leaf) :
    underName (prefixOf name ++ n) l = underName name (Spec.Leaf.under n l) := by
  unfold underName Spec.Leaf.under
  have e : prefixOf (prefixOf name ++ n) = prefixOf name ++ n ++ ['.'] := by
    generalize hg : prefixOf name ++ n = g at hu
    have hne : g ≠ [] := by rw [← hg]; simp [hn]
    unfold prefixOf
    dsimp only
    rw [if_neg hu, if_pos hne]
  cases l.path with
  | nil => simp [Spec.dotted]
  | cons a b => simp [Spec.dotted, e]

theorem joined_not_underscore (name n : Text) (hn : n ≠ []) (hu : n ≠ ['_']) : prefixOf name ++ n ≠ ['_'] := by
  unfold prefixOf
  dsimp only
  split
  · simpa using hu
  · split
    · intro h
      cases name with
      | nil => exact absurd rfl ‹_›
      | cons a as => cases as <;> simp at h
    · rename_i h1 h2
      have : name = [] := Classical.not_not.1 h2
      simpa [this] using hu

mutual
theorem encode_eq (sniff : List Byte → Text) (name : Text) (top : Bool) (hn : top = true → name = []) :
    ∀ v : Val, v.Plain top → encode sniff name v = .ok ((Spec.leaves sniff v).map (underName name))
  | .marshaler (some t), _ => rfl
  | .marshaler none, h => by simp [Val.Plain] at h
  | .reader r, h => by
    unfold encode encodeReader Spec.leaves
    unfold Val.Plain at h
    cases hf : r.file with
    | none => simp [underName]
    | some file =>
      dsimp only
      by_cases hs : r.seeker = true
      · obtain ⟨h0, h1⟩ := h (by simp [hf]) hs
        have hd : r.bytes.drop 0 = r.bytes := rfl
        have hne : r.bytes ≠ [] := by intro e; rw [e] at h1; simp at h1
        simp only [hs, if_true, h0, hd, hne, if_false, Option.isSome_some, and_self, List.map_cons, List.map_nil]
        have hb : buffer r.bytes = r.bytes.take 512 := by
          unfold buffer
          rw [Nat.sub_eq_zero_of_le h1]; simp
        rw [hb]
        rfl
      · simp [hs, underName]
  | .struct fs, h => by
    unfold encode Spec.leaves
    exact encodeFields_eq sniff name fs h
  | .map es, h => by
    unfold encode Spec.leaves
    rw [hn h.1]
    exact encodeEntries_eq sniff es h.2
  | .nilPointer, h => h.elim
  | .pointer v, h => by
    unfold encode Spec.leaves
    exact encode_eq sniff name top hn v h
  | .scalar t, _ => rfl
theorem encodeFields_eq (sniff : List Byte → Text) (name : Text) :
    ∀ fs : Fields, fs.Plain → encodeFields sniff name fs = .ok ((Spec.leavesFields sniff fs).map (underName name))
  | .nil, _ => rfl
  | .cons f v rest, h => by
    obtain ⟨hf, hv, hr⟩ := h
    unfold encodeFields Spec.leavesFields
    have ih := encodeFields_eq sniff name rest hr
    by_cases hs : skipped f = true
    · rw [if_pos hs, if_pos ((skipped_iff f hf).1 hs), ih, List.nil_append]
    · rw [if_neg hs, if_neg (fun e => hs ((skipped_iff f hf).2 e)), if_pos hf.exported, ih, fname_eq,
        encode_eq sniff _ false (by simp) v hv]
      show Res.ok _ = _
      rw [List.map_append, List.map_map]
      congr 2
      apply List.map_congr_left
      intro l _
      exact underName_under name _ hf.nonempty (joined_not_underscore name _ hf.nonempty hf.inlined) l
theorem encodeEntries_eq (sniff : List Byte → Text) :
    ∀ es : Entries, es.Plain → encodeEntries sniff es = .ok ((Spec.leavesEntries sniff es).map (underName []))
  | .nil, _ => rfl
  | .cons k v rest, h => by
    obtain ⟨hk, hu, hv, hr⟩ := h
    unfold encodeEntries Spec.leavesEntries
    rw [encodeEntries_eq sniff rest hr, encode_eq sniff k false (by simp) v hv]
    show Res.ok _ = _
    rw [List.map_append, List.map_map]
    congr 2
    apply List.map_congr_left
    intro l _
    have := underName_under [] k hk (by simpa [prefixOf] using hu) l
    simpa [prefixOf] using this
end

/-- **C197** (partial): a form has one part for each leaf of the value, in order, with the content of the leaf, named by the names on the
way to it with dots between them. -/
theorem form_fields_partial (sniff : List Byte → Text) (v : Val) (h : v.Plain true) :
    Encode sniff v = .ok (Spec.parts sniff v) := by
  unfold Encode Spec.parts
  rw [encode_eq sniff [] true (fun _ => rfl) v h]
  congr 1
  apply List.map_congr_left
  intro l _
  exact underName_nil l

/-- A plain field. -/
def field (name : Text) : Field := ⟨name, true, [], [], false⟩

/-- A user with an address and a file, for the examples. -/
def user (bs : List Byte) : Val := .struct (.cons (field ['u']) (.scalar ['x'])
  (.cons ⟨['a'], true, ['b', ',', 'o','m','i','t','z','e','r','o'], [], false⟩ (.pointer (.struct (.cons (field ['s']) (.marshaler (some ['1']))
    (.cons ⟨['z'], true, [',', 'o','m','i','t','e','m','p','t','y'], [], true⟩ (.scalar []) .nil))))
  (.cons (field ['f']) (.reader ⟨bs, 0, some ['n'], true⟩) .nil)))

theorem plain_field (n : Text) (hn : n ≠ []) (hu : n ≠ ['_']) : (field n).Plain :=
  ⟨rfl, by simp [field], hn, by simpa [Spec.nameOf, field, Spec.jsonName] using hu, by
    intro o ho; simp [field, Spec.options] at ho⟩

example (bs : List Byte) (h : 512 ≤ bs.length) : (user bs).Plain true := by
  have h1 : Field.Plain ⟨['a'], true, ['b', ',', 'o','m','i','t','z','e','r','o'], [], false⟩ :=
    ⟨rfl, by decide, by decide, by decide +kernel, by unfold Tidy; decide +kernel⟩
  have h2 : Field.Plain ⟨['z'], true, [',', 'o','m','i','t','e','m','p','t','y'], [], true⟩ :=
    ⟨rfl, by decide, by decide, by decide +kernel, by unfold Tidy; decide +kernel⟩
  refine ⟨plain_field _ (by decide) (by decide), trivial, h1, ⟨plain_field _ (by decide) (by decide), rfl, h2, trivial, trivial⟩,
    plain_field _ (by decide) (by decide), fun _ _ => ⟨rfl, h⟩, trivial⟩

example (sniff : List Byte → Text) (bs : List Byte) : Spec.parts sniff (user bs) =
    [⟨['u'], none, none, .text ['x']⟩, ⟨['b', '.', 's'], none, none, .text ['1']⟩,
     ⟨['f'], some ['n'], some (sniff (bs.take 512)), .bytes bs⟩] := by
  have e1 : Spec.leftOut (field ['u']) = False := by simp [Spec.leftOut, field, Spec.options]
  have e2 : Spec.leftOut ⟨['a'], true, ['b', ',', 'o','m','i','t','z','e','r','o'], [], false⟩ = False := by simp [Spec.leftOut]
  have e3 : Spec.leftOut (field ['s']) = False := by simp [Spec.leftOut, field, Spec.options]
  have e4 : Spec.leftOut ⟨['z'], true, [',', 'o','m','i','t','e','m','p','t','y'], [], true⟩ = True :=
    eq_true (by unfold Spec.leftOut; decide +kernel)
  have e5 : Spec.leftOut (field ['f']) = False := by simp [Spec.leftOut, field, Spec.options]
  unfold user
  simp only [Spec.parts, Spec.leaves, Spec.leavesFields, e1, e2, e3, e4, e5, if_true, if_false]
  simp [Spec.Leaf.under, Spec.part, Spec.nameOf, Spec.jsonName, field, Spec.dotted]

/-- **C197** fails: a nil pointer panics. -/
theorem form_nil_fails (sniff : List Byte → Text) (f : Field) (hs : skipped f = false) (he : f.exported = true) :
    Encode sniff (.struct (.cons f .nilPointer .nil)) = .panic := by
  simp [Encode, encode, encodeFields, hs, he, Res.andThen]

/-- A map below a field loses the name of the field: entries of two maps have the same name. -/
theorem form_map_fails (sniff : List Byte → Text) (k x y : Text) :
    Encode sniff (.struct (.cons (field ['a']) (.map (.cons k (.scalar x) .nil)) (.cons (field ['b']) (.map (.cons k (.scalar y) .nil)) .nil)))
      = .ok [⟨k, none, none, .text x⟩, ⟨k, none, none, .text y⟩] := by
  simp [Encode, encode, encodeFields, encodeEntries, Res.andThen, skipped, field]

/-- A field that is excluded by `json:"-"` is sent, one that is not exported panics. -/
theorem form_excluded_fails (sniff : List Byte → Text) (x : Text) :
    Encode sniff (.struct (.cons ⟨['P'], true, ['-'], [], false⟩ (.scalar x) .nil)) = .ok [⟨['-'], none, none, .text x⟩] ∧
    Encode sniff (.struct (.cons ⟨['p'], false, [], [], false⟩ (.scalar x) .nil)) = .panic := by
  constructor
  · simp [Encode, encode, encodeFields, Res.andThen, skipped, cut, contains, omitempty, omitzero, prefixOf, fname]
  · simp [Encode, encodeFields, encode, skipped]

/-- An empty file is an error; the type of a small one is taken from its bytes with zeros behind them; one that was read from is
sent from its beginning. -/
theorem form_file_fails (sniff : List Byte → Text) (n : Text) (b c : Byte) :
    Encode sniff (.reader ⟨[], 0, some n, true⟩) = .error ∧
    Encode sniff (.reader ⟨[b], 0, some n, true⟩) = .ok [⟨[], some n, some (sniff (b :: List.replicate 511 0)), .bytes [b]⟩] ∧
    (∃ p, Encode sniff (.reader ⟨[b, c], 1, some n, true⟩) = .ok [p] ∧ p.content = .bytes [b, c]) := by
  refine ⟨rfl, rfl, _, rfl, rfl⟩

/-- **C197** fails. -/
theorem form_fails : ¬ Spec.Holds := by
  intro h
  have := h (fun _ => []) (.struct (.cons (field ['a']) .nilPointer .nil))
  rw [form_nil_fails _ _ (by rfl) rfl] at this
  rcases this with this | this <;> cases this

end Verif.Rest.Form
