import Verif.Xyz.SwitchProps
import Verif.Xyz.SwitchTextModel
import Verif.Json.TextLemmas
/-!
# C235: the JSON values an enum lists are those it accepts

What a text says is `Json.Spec.StringText t m`: the text `t`, whatever escapes it uses, is the string `m` (RFC 8259).
-/
namespace Verif.Xyz.SwitchText
open Verif.Json (Text)
open Verif.Json.Spec (StringText)

theorem chars_ofText (t : Str) : chars (Json.ofText t) = t := by
  induction t with
  | nil => rfl
  | cons c t ih => show c :: chars (Json.ofText t) = _; rw [ih]

theorem read_text (k : Kind) (names : List Str) (old : Val) {t : Text} {m : Str} (h : StringText t m) :
    unmarshalQuoted k names old t =
      if k = .string then (.s m, true)
      else match byName names m with
        | some i => ((k.ofIndex i).getD old, true)
        | none => (old, false) := by
  unfold unmarshalQuoted
  rw [Json.unmarshalString_text h]
  show (if k = .string then (Val.s (chars (Json.ofText m)), true) else match byName names (chars (Json.ofText m)) with
        | some i => ((k.ofIndex i).getD old, true)
        | none => (old, false)) = _
  rw [chars_ofText]

/-- A text means one string only. -/
theorem text_one {t : Text} {a b : Str} (ha : StringText t a) (hb : StringText t b) : a = b := by
  have h1 := Json.unmarshalString_text ha
  rw [Json.unmarshalString_text hb] at h1
  injection h1 with h1
  have := congrArg chars h1
  rwa [chars_ofText, chars_ofText, eq_comm] at this

/-- **C235.** An enum lists as many values as it has cases, and the text it lists for a case is a JSON string saying the
name of the case. -/
theorem listed (names : List Str) : (valuesJSON names).length = names.length ∧
    ∀ (i : Nat) (h : i < names.length), ∃ t, (valuesJSON names)[i]? = some t ∧ StringText t names[i] := by
  induction names with
  | nil => exact ⟨rfl, fun i h => absurd h (Nat.not_lt_zero i)⟩
  | cons n names ih =>
    refine ⟨congrArg Nat.succ ih.1, fun i h => ?_⟩
    cases i with
    | zero => exact ⟨_, rfl, Json.marshalString_text n⟩
    | succ i => exact ih.2 i (Nat.lt_of_succ_lt_succ h)

theorem valuesJSON_map (names : List Str) :
    valuesJSON names = names.map fun n => Json.marshalString (Json.ofText n) := by
  induction names with
  | nil => rfl
  | cons n names ih => show _ :: valuesJSON names = _; rw [ih]; rfl

/-- Two cases are listed differently if they are named differently, and only then. -/
theorem listed_distinct (names : List Str) : (valuesJSON names).Nodup ↔ names.Nodup := by
  rw [valuesJSON_map]
  exact List.nodup_map_iff fun a b h => text_one (Json.marshalString_text a) (h ▸ Json.marshalString_text b)

example : valuesJSON [['a'], ['"']] = [['"', 'a', '"'], ['"', '\\', '"', '"']] := by decide

/-- The name of a case: its `json` tag, or the name of the field if it has none. -/
theorem field_name (fields : List (Str × Option Str)) (i : Nat) (h : i < fields.length) :
    (∀ tag, fields[i].2 = some tag → (fieldNames fields)[i]? = some tag) ∧
    (fields[i].2 = none → (fieldNames fields)[i]? = some fields[i].1) := by
  induction fields generalizing i with
  | nil => exact absurd h (Nat.not_lt_zero i)
  | cons f fields ih =>
    obtain ⟨n, o⟩ := f
    have e : fieldNames ((n, o) :: fields) = o.getD n :: fieldNames fields := by cases o <;> rfl
    rw [e]
    cases i with
    | zero => cases o with
      | none => exact ⟨fun _ h => (nomatch h), fun _ => rfl⟩
      | some t => exact ⟨fun _ h => h, fun h => (nomatch h)⟩
    | succ i => exact ih i (Nat.lt_of_succ_lt_succ h)

example : (fieldNames [(['A'], none), (['B'], some ['b']), (['C'], some [])])[1]? = some ['b'] :=
  (field_name _ 1 (by decide)).1 _ rfl

/-- **C235.** Every text of the name of a case, escaped or not, is read as the value of the case, whatever was there. -/
theorem name_read_partial (k : Kind) (names : List Str) (hd : names.Nodup) (hk : k ≠ .uintptr) (i : Nat)
    (hi : i < names.length) (old : Val) (t : Text) (h : StringText t names[i]) :
    unmarshalQuoted k names old t = (valueOf k names i, true) := by
  rw [read_text k names old h]
  match k with
  | .string => simp [valueOf, hi]
  | .bool => simp [byName_self names hd i hi, valueOf, Kind.ofIndex]
  | .int _ => simp [byName_self names hd i hi, valueOf, Kind.ofIndex]
  | .uint _ => simp [byName_self names hd i hi, valueOf, Kind.ofIndex]
  | .uintptr => exact absurd rfl hk

/-- **C235.** Each of the texts that an enum lists is accepted, as the value of its case. -/
theorem listed_read_partial (k : Kind) (names : List Str) (hd : names.Nodup) (hk : k ≠ .uintptr) (i : Nat) (t : Text)
    (h : (valuesJSON names)[i]? = some t) (old : Val) :
    unmarshalQuoted k names old t = (valueOf k names i, true) := by
  have hi : i < names.length := by
    rw [← (listed names).1]; exact (List.getElem?_eq_some_iff.mp h).1
  obtain ⟨t', ht', hs⟩ := (listed names).2 i hi
  rw [h] at ht'; injection ht' with ht'; subst ht'
  exact name_read_partial k names hd hk i hi old t hs

example : unmarshalQuoted (.uint 8) [['o', 'f', 'f'], ['o', 'n']] (.i 9) ['"', 'o', 'n', '"'] = (.i 1, true) :=
  listed_read_partial _ _ (by decide) (by decide) 1 _ (by decide) _

/-- The same name with an escape in it. -/
example : unmarshalQuoted .bool [['o', 'f', 'f'], ['o', 'n']] (.b false) ['"', '\\', 'u', '0', '0', '6', 'F', 'n', '"'] =
    (.b true, true) := by decide +kernel

/-- **C235.** Strings that are not the name of a case are refused by enums other than strings, and change nothing. -/
theorem others_refused_partial (k : Kind) (names : List Str) (hk : k ≠ .string) (old : Val) (t : Text) (m : Str)
    (h : StringText t m) (hm : m ∉ names) : unmarshalQuoted k names old t = (old, false) := by
  rw [read_text k names old h, if_neg hk, byName_none names m hm]

/-- A refused text changes nothing, whatever it is. -/
theorem refused_unchanged (k : Kind) (names : List Str) (old v : Val) (t : Text)
    (h : unmarshalQuoted k names old t = (v, false)) : v = old := by
  unfold unmarshalQuoted at h
  split at h
  · injection h with h; exact h.symm
  · split at h
    · injection h with _ h; cases h
    · split at h
      · injection h with _ h; cases h
      · injection h with h; exact h.symm

/-- **C235.** The text of the value of a case is one of those listed, and reading it back gives the value. -/
theorem case_written_partial (k : Kind) (names : List Str) (hd : names.Nodup) (v : Val) (hv : k.Has v)
    (hn : ∃ i, i < names.length ∧ matchesIndex k names v i = true) (old : Val) :
    marshal k names v ∈ valuesJSON names ∧ unmarshalQuoted k names old (marshal k names v) = (v, true) := by
  obtain ⟨i, hi, hm⟩ := hn
  cases hf : firstFrom (matchesIndex k names v) 0 names.length with
  | none => have := firstFrom_none hf i (by omega) (by omega); rw [hm] at this; cases this
  | some j =>
    obtain ⟨_, hj, hmj, _⟩ := firstFrom_some hf
    have hj : j < names.length := by omega
    have e : marshal k names v = Json.marshalString (Json.ofText names[j]) := by
      unfold marshal marshalText; rw [hf]; simp [hj]
    obtain ⟨t, ht, hs⟩ := (listed names).2 j hj
    rw [e]
    refine ⟨?_, ?_⟩
    · rw [valuesJSON_map]; exact List.mem_map.mpr ⟨_, List.getElem_mem hj, rfl⟩
    · rw [read_text k names old (Json.marshalString_text names[j])]
      by_cases hk : k = .string
      · subst hk
        match v with
        | .b _ => exact hv.elim
        | .i _ => exact hv.elim
        | .s t => simp [matchesIndex, hj] at hmj; simp [hmj]
      · simp only [if_neg hk, byName_self names hd j hj, ofIndex_of_matches k names v j hk hv hmj, Option.getD_some]

example : marshal (.int 8) [['a'], ['b']] (.i 1) ∈ valuesJSON [['a'], ['b']] ∧
    unmarshalQuoted (.int 8) [['a'], ['b']] (.i 0) (marshal (.int 8) [['a'], ['b']] (.i 1)) = (.i 1, true) :=
  case_written_partial (.int 8) _ (by decide) (.i 1) ⟨by decide, by decide, by decide⟩ ⟨1, by decide, by decide⟩ _

/-- The claim in full: the strings an enum accepts are those it lists, it reads each as its case, and what it writes is
one of them. -/
def Claim : Prop :=
  ∀ (k : Kind) (names : List Str), names.Nodup →
    (∀ (old : Val) (t : Text) (m : Str), StringText t m → ((unmarshalQuoted k names old t).2 = true ↔ m ∈ names)) ∧
    (∀ (old : Val) (t : Text) (i : Nat) (h : i < names.length), StringText t names[i] →
      unmarshalQuoted k names old t = (valueOf k names i, true)) ∧
    (∀ v, k.Has v → marshal k names v ∈ valuesJSON names)

/-- **C235 fails.** A string enum accepts strings it does not list; a numeric one writes numbers without a name as strings
it does not list, and then refuses them; a `uintptr` accepts the names and ignores them. -/
theorem claim_fails : ¬ Claim ∧
    unmarshalQuoted .string [['a']] (.s ['a']) ['"', 'z', '"'] = (.s ['z'], true) ∧
    marshal (.int 8) [['a']] (.i 5) ∉ valuesJSON [['a']] ∧
    unmarshalQuoted (.int 8) [['a']] (.i 0) (marshal (.int 8) [['a']] (.i 5)) = (.i 0, false) ∧
    unmarshalQuoted .uintptr [['a'], ['b']] (.i 0) ['"', 'b', '"'] = (.i 0, true) := by
  have h2 : marshal (.int 8) [['a']] (.i 5) ∉ valuesJSON [['a']] := by decide +kernel
  refine ⟨fun h => ?_, by decide +kernel, h2, by decide +kernel, by decide +kernel⟩
  exact h2 ((h (.int 8) [['a']] (by decide)).2.2 (.i 5) ⟨by decide, by decide, by decide⟩)

/-- **C235.** The strings a boolean, integer or unsigned enum accepts are exactly the names it lists. -/
theorem accepts_partial (k : Kind) (names : List Str) (hk : k ≠ .string) (old : Val) (t : Text) (m : Str)
    (h : StringText t m) : (unmarshalQuoted k names old t).2 = true ↔ m ∈ names := by
  rw [read_text k names old h, if_neg hk]
  by_cases hm : m ∈ names
  · refine ⟨fun _ => hm, fun _ => ?_⟩
    cases hb : byName names m with
    | some i => rfl
    | none =>
      obtain ⟨i, hi, rfl⟩ := List.getElem_of_mem hm
      have := firstFrom_none hb i (by omega) (by omega)
      simp [hi] at this
  · rw [byName_none names m hm]
    exact ⟨fun h => (nomatch h), fun h => absurd h hm⟩

end Verif.Xyz.SwitchText
