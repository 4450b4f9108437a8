import Verif.Rest.TextModel
import Verif.Rest.ScanLemmas
/-!
# C198: text/plain
-/
namespace Verif.Rest.Plain
namespace Spec

/-- The text of an element: what its MarshalText returns, if it has one. -/
def text (e : Elem) : Text := match e.marshal with | some t => t | none => e.shown

/-- A list is written with one element in each line. -/
def ListsByLine : Prop := ∀ es : List Elem, (∀ e ∈ es, '\n' ∉ text e) →
  ∃ body, encode (.slice es) = .ok body ∧ body.splitOn '\n' = es.map text ++ [[]]

/-- What is written can be read back. -/
def ReadsBack : Prop :=
  (∀ s : Text, ∃ body, encode (.str s) = .ok body ∧ scanStr body = some s) ∧
  (∀ t : Text, ∃ body, encode (.marshaler (some t)) = .ok body ∧ unmarshaled body = t) ∧
  (∀ es : List Elem, ∃ body, encode (.slice es) = .ok body ∧ scanSlice body = some (es.map text))

/-- White space: U+0009 to U+000D, space, and the other characters of Unicode with this property. -/
def White (c : Char) : Prop := c.toNat ∈ [9, 10, 11, 12, 13, 0x20, 0x85, 0xa0, 0x1680, 0x2000, 0x2001, 0x2002, 0x2003, 0x2004, 0x2005,
  0x2006, 0x2007, 0x2008, 0x2009, 0x200a, 0x2028, 0x2029, 0x202f, 0x205f, 0x3000]

end Spec

theorem isSpace_iff (c : Char) : isSpace c = true ↔ Spec.White c := by
  unfold isSpace Spec.White
  simp only [Bool.or_eq_true, Bool.and_eq_true, decide_eq_true_eq, List.mem_cons, List.not_mem_nil, or_false]
  omega

theorem word_all : ∀ s : Text, (∀ c ∈ s, isSpace c = false) → word s = s
  | [], _ => rfl
  | c :: cs, h => by
    simp [word, h c (by simp), word_all cs (fun d hd => h d (by simp [hd]))]

theorem word_clean : ∀ s : Text, ∀ c ∈ word s, isSpace c = false
  | [], _, h => by simp [word] at h
  | d :: ds, c, h => by
    unfold word at h
    by_cases hd : isSpace d = true
    · simp [hd] at h
    · simp only [hd, Bool.false_eq_true, if_false, List.mem_cons] at h
      rcases h with h | h
      · rw [h]; simpa using hd
      · exact word_clean ds c h

theorem skip_head (c : Char) (cs : Text) (h : isSpace c = false) : skipSpace (c :: cs) = c :: cs := by
  simp [skipSpace, h]

/-- **C198** (strings): a string is read back exactly if it is not empty and has no white space in it; integers always are. -/
theorem string_reads_back_iff (s : Text) :
    (∃ body, encode (.str s) = .ok body ∧ scanStr body = some s) ↔ s ≠ [] ∧ ∀ c ∈ s, ¬ Spec.White c := by
  have hw : ∀ c, ¬ Spec.White c ↔ isSpace c = false := fun c => by rw [← isSpace_iff]; simp
  simp only [hw]
  constructor
  · rintro ⟨body, hb, hs⟩
    cases hb
    unfold scanStr at hs
    split at hs
    · cases hs
    · rename_i hne
      have e : word (skipSpace s) = s := Option.some.inj hs
      refine ⟨?_, ?_⟩
      · rintro rfl; exact hne rfl
      · intro c hc
        rw [← e] at hc
        exact word_clean _ c hc
  · rintro ⟨hne, hc⟩
    refine ⟨s, rfl, ?_⟩
    cases s with
    | nil => exact absurd rfl hne
    | cons c cs =>
      unfold scanStr
      rw [skip_head c cs (hc c (by simp)), if_neg (by simp), word_all _ hc]

theorem skip_nil_iff : ∀ s : Text, skipSpace s = [] ↔ ∀ c ∈ s, isSpace c = true
  | [] => by simp [skipSpace]
  | c :: cs => by
    unfold skipSpace
    by_cases h : isSpace c = true
    · simp [h, skip_nil_iff cs]
    · simp [h]

/-- **C198** (blank texts): reading a string fails exactly if the body has nothing but white space in it. -/
theorem blank_refused_iff (body : Text) : scanStr body = none ↔ ∀ c ∈ body, Spec.White c := by
  simp only [← isSpace_iff]
  rw [← skip_nil_iff]
  unfold scanStr
  split <;> simp_all

/-- **C198** (partial): integers are read back. -/
theorem integer_reads_back_partial (i : Int) (h1 : -2 ^ 63 ≤ i) (h2 : i < 2 ^ 63) :
    ∃ body, encode (.int i) = .ok body ∧ scanNum body = some i := by
  refine ⟨_, rfl, ?_⟩
  unfold scanNum
  have : ∀ c ∈ printInt i, isSpace c = false := by
    intro c hc
    have hd : ∀ n, ∀ c ∈ Nat.toDigits 10 n, isSpace c = false := by
      intro n c hc
      obtain ⟨d, rfl⟩ := toDigits_all n c hc
      clear hc
      revert d; decide
    unfold printInt at hc
    split at hc
    · rcases List.mem_cons.1 hc with h | h
      · rw [h]; decide
      · exact hd _ c h
    · exact hd _ c hc
  have e : skipSpace (printInt i) = printInt i := by
    cases h : printInt i with
    | nil => rfl
    | cons c cs => exact skip_head c cs (this c (by rw [h]; simp))
  rw [e, scan_print i h1 h2]

theorem lines_split : ∀ es : List Elem, (∀ e ∈ es, '\n' ∉ e.shown) → (lines es).splitOn '\n' = es.map Elem.shown ++ [[]]
  | [], _ => by simp [lines]
  | e :: es, h => by
    unfold lines
    rw [List.splitOn_append_cons_self_of_not_mem (h e (by simp)), lines_split es (fun x hx => h x (by simp [hx]))]
    rfl

/-- **C198** (partial): the lines of the body are the elements, for elements without a MarshalText. -/
theorem list_by_line_partial (es : List Elem) (hm : ∀ e ∈ es, e.marshal = none) (h : ∀ e ∈ es, '\n' ∉ Spec.text e) :
    ∃ body, encode (.slice es) = .ok body ∧ body.splitOn '\n' = es.map Spec.text ++ [[]] := by
  have ht : ∀ e ∈ es, Spec.text e = e.shown := fun e he => by simp [Spec.text, hm e he]
  refine ⟨_, rfl, ?_⟩
  rw [lines_split es (fun e he => by rw [← ht e he]; exact h e he)]
  congr 1
  exact List.map_congr_left fun e he => (ht e he).symm

example : ∃ body, encode (.slice [⟨['a', 'b'], none⟩, ⟨[], none⟩, ⟨['c'], none⟩]) = .ok body ∧
    body.splitOn '\n' = [['a', 'b'], [], ['c'], []] :=
  list_by_line_partial _ (by decide) (by decide)

/-- A list in a struct or in a map that has no other is written like the list; the rest of the struct or map is not written. -/
theorem wrapped_list (es : List Elem) (k : Text) (before after : List (Text × Item)) (shown : Text)
    (hb : ∀ x ∈ before, x.2 = .other) (ha : ∀ x ∈ after, x.2 = .other) :
    encode (.sliceStruct true es) = encode (.slice es) ∧
    encode (.mapping (before ++ (k, .slice es) :: after) shown) = encode (.slice es) := by
  refine ⟨rfl, ?_⟩
  have skip : ∀ (l : List (Text × Item)) (f : Option (List Elem)), (∀ x ∈ l, x.2 = .other) → pick f l = some f := by
    intro l
    induction l with
    | nil => intro f _; rfl
    | cons x xs ih =>
      intro f h
      obtain ⟨n, i⟩ := x
      have : i = .other := h (n, i) (by simp)
      subst this
      exact ih f (fun y hy => h y (by simp [hy]))
  -- sorted: exactly one slice stays
  have key : ∀ (l : List (Text × Item)) (f : Option (List Elem)), (∀ x ∈ l, x.2 = .other ∨ x.2 = .slice es) → (∃ x ∈ l, x.2 = .slice es) →
      pick f l = some (some es) := by
    intro l
    induction l with
    | nil => intro f _ h; obtain ⟨x, hx, _⟩ := h; simp at hx
    | cons x xs ih =>
      intro f h hex
      obtain ⟨n, i⟩ := x
      rcases h (n, i) (by simp) with e | e
      · have e : i = .other := e
        subst e
        apply ih f (fun y hy => h y (by simp [hy]))
        obtain ⟨y, hy, hye⟩ := hex
        rcases List.mem_cons.1 hy with r | r
        · rw [r] at hye; cases hye
        · exact ⟨y, r, hye⟩
      · have e : i = .slice es := e
        subst e
        by_cases hx : ∃ x ∈ xs, x.2 = .slice es
        · exact ih (some es) (fun y hy => h y (by simp [hy])) hx
        · show pick (some es) xs = _
          apply skip
          intro y hy
          rcases h y (by simp [hy]) with e | e
          · exact e
          · exact absurd ⟨y, hy, e⟩ hx
  have memi : ∀ (k : Text × Item) (l : List (Text × Item)) (x : Text × Item), x ∈ insert k l ↔ x = k ∨ x ∈ l := by
    intro k l x
    induction l with
    | nil => simp [insert]
    | cons y ys ih =>
      unfold insert
      split
      · simp
      · simp only [List.mem_cons, ih]
        constructor <;> rintro (h | h | h) <;> simp [h]
  have mem : ∀ (l : List (Text × Item)) (x : Text × Item), x ∈ sort l ↔ x ∈ l := by
    intro l x
    induction l with
    | nil => rfl
    | cons y ys ih => unfold sort; rw [memi, ih, List.mem_cons]
  have := key (sort (before ++ (k, .slice es) :: after)) none (by
      intro x hx
      rw [mem] at hx
      rcases List.mem_append.1 hx with h | h
      · exact Or.inl (hb x h)
      · rcases List.mem_cons.1 h with h | h
        · right; rw [h]
        · exact Or.inl (ha x h)) ⟨(k, .slice es), by rw [mem]; simp, rfl⟩
  unfold encode
  dsimp only
  rw [this]

/-- **C198** fails: elements of a list that have a `MarshalText` are written by `fmt`. -/
theorem list_marshalers_fails : ¬ Spec.ListsByLine := by
  intro h
  obtain ⟨body, hb, hs⟩ := h [⟨['a'], some ['b']⟩] (by decide)
  cases hb
  revert hs
  decide

/-- A type with its own text is never read back, unless the text is empty; a list never is. -/
theorem reads_back_fails : ¬ Spec.ReadsBack ∧
    (∀ t : Text, t ≠ [] → ∀ body, encode (.marshaler (some t)) = .ok body → unmarshaled body ≠ t) ∧
    (∀ es body, encode (.slice es) = .ok body → scanSlice body = none) ∧
    scanStr ['a', ' ', 'b'] = some ['a'] := by
  refine ⟨?_, fun t ht body _ h => ht h.symm, fun _ _ _ => rfl, by decide⟩
  rintro ⟨h, -, -⟩
  obtain ⟨body, hb, hs⟩ := h []
  cases hb
  exact absurd hs (by decide)

/-- A nil result panics, as does one in a map, and a struct whose first field is a list that is not exported. -/
theorem nil_fails (es : List Elem) (k shown : Text) :
    encode .nil = .panic ∧ encode (.mapping [(k, .nil)] shown) = .panic ∧ encode (.sliceStruct false es) = .panic :=
  ⟨rfl, rfl, rfl⟩

end Verif.Rest.Plain
