import Verif.Json.TextLemmas

/-!
# C230: sets of types round trip. C231: static values only accept themselves
-/
namespace Verif.Json

/-! ## C230 -/

/-- What a set of types should be in a document: a string if it is one type, an array of strings otherwise. -/
def Document (types : List Text) (t : Text) : Prop :=
  (∀ a, types = [a] → Spec.StringText t a) ∧ (types.length ≠ 1 → Spec.ArrayText t types)

/-- The JSON of a set of types is what a schema says: a string for one type, an array of strings for several, by RFC 8259. -/
theorem types_written (types : List Text) : Document types (marshalTypes (some (types.map ofText))) := by
  refine ⟨?_, ?_⟩
  · rintro a rfl
    exact marshalString_text a
  · intro h
    match types, h with
    | [], _ => exact .empty [] (by simp [Spec.Blank])
    | a :: b :: r, _ =>
      exact .some _ _ (marshalElems_text (a :: b :: r) (by simp))

example : marshalTypes (some [ofText ['a', '<', '"']]) =
    ['"', 'a', '\\', 'u', '0', '0', '3', 'c', '\\', '"', '"'] := by decide
example : marshalTypes (some [ofText ['a'], ofText ['b']]) = ['[', '"', 'a', '"', ',', '"', 'b', '"', ']'] := by decide

/-- Any text of a string is read as the set of that one type, whatever the set was. -/
theorem types_read_string (old : TypeSet) (t a : Text) (h : Spec.StringText t a) :
    unmarshalTypes old t = some (some [ofText a]) := by
  have h1 := unmarshalString_text h
  obtain ⟨b, -, rfl⟩ := h
  show Option.map _ (unmarshalString ('"' :: (b ++ ['"']))) = _
  rw [h1]; rfl

/-- Any text of an array of strings, with any white space and escapes, is read as the set of those types, whatever the set
was. -/
theorem types_read_array (old : TypeSet) (t : Text) (types : List Text) (h : Spec.ArrayText t types) :
    unmarshalTypes old t = some (some (types.map ofText)) := by
  have h1 := unmarshalArray_text (old.getD []) h
  cases h with
  | empty w hw => rw [← h1]; rfl
  | some t ms h => rw [← h1]; rfl

/-- A set of types, marshalled and unmarshalled, is the same set, whatever was there before. -/
theorem types_round_trip (old : TypeSet) (types : List Text) :
    unmarshalTypes old (marshalTypes (some (types.map ofText))) = some (some (types.map ofText)) := by
  obtain ⟨h1, h2⟩ := types_written types
  by_cases h : types.length = 1
  · match types, h with
    | [a], _ => exact types_read_string old _ a (h1 a rfl)
  · exact types_read_array old _ types (h2 h)

/-- So is the set that is nil. -/
theorem types_nil_round_trip (old : TypeSet) : unmarshalTypes old (marshalTypes none) = some none := by
  rfl

-- two types, one of which needs a surrogate pair and escapes
example : unmarshalTypes none
    ['[', ' ', '"', '\\', 'u', 'D', '8', '3', 'D', '\\', 'u', 'd', 'e', '0', '0', '"', '\n', ',', '"', '\\', '/', '"', ']'] =
    some (some [ofText ['😀'], ofText ['/']]) := by decide

/-- Sets with different types have different JSON. -/
theorem types_injective (a b : List Text) (h : marshalTypes (some (a.map ofText)) = marshalTypes (some (b.map ofText))) :
    a = b := by
  have h1 := types_round_trip none a
  rw [h, types_round_trip none b] at h1
  have h2 := Option.some.inj (Option.some.inj h1)
  have hi : Function.Injective ofText := fun x y hxy => by
    refine (List.map_inj_right ?_).1 hxy
    intro c d hcd; exact Unit8.ch.inj hcd
  exact ((List.map_inj_right fun x y hxy => hi hxy).1 h2).symm

/-- What is accepted is a grammatical string, null, or an array of grammatical strings and nulls, with as many elements as
the set has types; white space may follow. -/
theorem types_accepts_partial (old new : TypeSet) (t : Text) (ht : t ≠ []) (h : unmarshalTypes old t = some new) :
    ∃ w u w', Spec.Blank w ∧ Spec.Blank w' ∧ t = w ++ u ++ w' ∧
      ((new = none ∧ u = ['n', 'u', 'l', 'l']) ∨
        (∃ b s, Spec.Grammar b ∧ u = '"' :: (b ++ ['"']) ∧ new = some [s]) ∨
        (∃ v, Spec.Blank v ∧ u = '[' :: (v ++ [']']) ∧ new = some []) ∨
        (∃ e ss, Spec.ElementsGrammar e ss.length ∧ u = '[' :: e ∧ new = some ss)) := by
  cases t with
  | nil => exact absurd rfl ht
  | cons c r =>
    by_cases hq : c = '"'
    · subst hq
      have h' : (unmarshalString ('"' :: r)).map (fun s => (some [s] : TypeSet)) = some new := h
      cases hl : lexStr r with
      | none =>
        have : unmarshalString ('"' :: r) = none := by
          unfold unmarshalString
          show (match lexStr r with
            | some (is, r') => if skip r' = [] then some (ofText (combine is)) else none
            | none => none) = _
          rw [hl]
        rw [this] at h'; cases h'
      | some p =>
        obtain ⟨is, r'⟩ := p
        have e : unmarshalString ('"' :: r) = if skip r' = [] then some (ofText (combine is)) else none := by
          unfold unmarshalString
          show (match lexStr r with
            | some (is, r') => if skip r' = [] then some (ofText (combine is)) else none
            | none => none) = _
          rw [hl]
        rw [e] at h'
        split at h'
        · next hs =>
          obtain ⟨b, hb, rfl⟩ := lexStr_grammar _ r (Nat.le_refl _) _ _ hl
          refine ⟨[], '"' :: (b ++ ['"']), r', by simp [Spec.Blank], skip_nil hs, by simp, .inr (.inl ?_)⟩
          exact ⟨b, _, hb, rfl, (Option.some.inj h').symm⟩
        · cases h'
    · have h' : unmarshalArray (old.getD []) (c :: r) = some new := by
        have e : unmarshalTypes old (c :: r) = unmarshalArray (old.getD []) (c :: r) := if_neg hq
        rw [← e]; exact h
      obtain ⟨w, hw, ht⟩ := skip_split (c :: r)
      unfold unmarshalArray at h'
      split at h'
      · next r' hr' =>
        split at h'
        · next hs =>
          rw [hr'] at ht
          exact ⟨w, ['n', 'u', 'l', 'l'], r', hw, skip_nil hs, by rw [ht]; simp, .inl ⟨(Option.some.inj h').symm, rfl⟩⟩
        · cases h'
      · next r' hr' =>
        rw [hr'] at ht
        unfold readArray at h'
        split at h'
        · next r'' hr'' =>
          split at h'
          · next hs =>
            obtain ⟨v, hv, hv'⟩ := skip_split r'
            rw [hr''] at hv'
            exact ⟨w, '[' :: (v ++ [']']), r'', hw, skip_nil hs, by rw [ht, hv']; simp,
              .inr (.inr (.inl ⟨v, hv, rfl, (Option.some.inj h').symm⟩))⟩
          · cases h'
        · split at h'
          · next ss r'' hr'' =>
            split at h'
            · next hs =>
              obtain ⟨e, he, he'⟩ := readElems_grammar _ _ _ _ _ hr''
              exact ⟨w, '[' :: e, r'', hw, skip_nil hs, by rw [ht, he']; simp,
                .inr (.inr (.inr ⟨e, ss, he, rfl, (Option.some.inj h').symm⟩))⟩
            · cases h'
          · cases h'
      · cases h'

/-- A number is not a type, and neither is what is not JSON. -/
example : unmarshalTypes none ['[', '1', ']'] = none ∧ unmarshalTypes none ['"', 'a'] = none ∧
    unmarshalTypes none ['"', '\\', 'x', '"'] = none := by decide

/-- A null in an array is no type: it leaves the type that was there, so that what is read depends on what was there. -/
theorem types_null_element_fails :
    unmarshalTypes (some [ofText ['a']]) ['[', 'n', 'u', 'l', 'l', ']'] = some (some [ofText ['a']]) ∧
    unmarshalTypes none ['[', 'n', 'u', 'l', 'l', ']'] = some (some [[]]) := by decide

/-- A type that is not valid UTF-8 is lost. -/
theorem types_round_trip_fails :
    unmarshalTypes none (marshalTypes (some [[.bad 0xFF]])) = some (some [ofText [Char.ofNat 0xFFFD]]) ∧
    (ofText [Char.ofNat 0xFFFD] ≠ [.bad 0xFF]) := by decide

/-- Half of a surrogate pair is read as U+FFFD, and does not hide what follows. -/
theorem types_lone_surrogate :
    unmarshalTypes none ['"', '\\', 'u', 'D', '8', '0', '0', '\\', 'u', '0', '0', '4', '1', '"'] =
      some (some [ofText [Char.ofNat 0xFFFD, 'A']]) := by decide

/-- The method itself, which may be called with white space before the string, refuses it then, although the same is read
without; before an array it is read. (Within a document there is none: the decoder passes the value alone.) -/
theorem types_leading_space_fails :
    unmarshalTypes none [' ', '"', 'a', '"'] = none ∧ unmarshalTypes none ['"', 'a', '"'] = some (some [ofText ['a']]) ∧
    unmarshalTypes none [' ', '[', '"', 'a', '"', ']'] = some (some [ofText ['a']]) := by decide

/-! ## C231 -/

/-- A static text accepts its own JSON. -/
theorem static_own (v : Text) : staticAccepts (some (marshalString (ofText v))) (marshalString (ofText v)) = true := by
  simp [staticAccepts]

/-- What a static text accepts is JSON of that text, so that it never accepts another value. -/
theorem static_only (v t : Text) (h : staticAccepts (some (marshalString (ofText v))) t = true) :
    Spec.StringText t v ∧ ∀ a, Spec.StringText t a → a = v := by
  have ht : t = marshalString (ofText v) := by
    have := of_decide_eq_true h
    exact this.symm
  subst ht
  refine ⟨marshalString_text v, fun a ha => ?_⟩
  have h1 := unmarshalString_text ha
  rw [unmarshalString_text (marshalString_text v)] at h1
  have h2 := Option.some.inj h1
  refine ((List.map_inj_right ?_).1 h2).symm
  intro c d hcd; exact Unit8.ch.inj hcd

/-- For values of any type: a static value accepts exactly the JSON that it marshals to, and nothing if it cannot be
marshalled. What is missing is other JSON of the same value. -/
theorem static_accepts_partial (own : Option Text) (t : Text) : staticAccepts own t = true ↔ own = some t := by
  cases own with
  | none => simp [staticAccepts]
  | some o => simp [staticAccepts]

example : staticAccepts (some (marshalString (ofText ['a', '&']))) ['"', 'a', '\\', 'u', '0', '0', '2', '6', '"'] = true := by
  decide

/-- JSON of the same text that is written in another way is refused: what another program, which does not escape `&` as Go
does, sends for this value. -/
theorem static_escape_fails :
    Spec.StringText ['"', 'a', '&', '"'] ['a', '&'] ∧
    staticAccepts (some (marshalString (ofText ['a', '&']))) ['"', 'a', '&', '"'] = false := by
  refine ⟨⟨['a', '&'], ?_, rfl⟩, by decide⟩
  exact .plain _ _ _ (by decide) (by decide) (by decide) (.plain _ _ _ (by decide) (by decide) (by decide) .nil)

/-- White space around the value is refused as well. -/
theorem static_space_fails (v : Text) : staticAccepts (some (marshalString (ofText v))) (marshalString (ofText v) ++ [' ']) = false := by
  have h : marshalString (ofText v) ≠ marshalString (ofText v) ++ [' '] := by
    intro h
    have := congrArg List.length h
    simp at this
  simp [staticAccepts, h]

end Verif.Json
