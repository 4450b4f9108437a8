import Verif.Zgo.TypeLemmas
/-!
# C218: the text of a type determines the type

zgo compares and combines types by the text it writes for them, so two types with the same text are one type to Zig.
-/
namespace Verif.Zgo.Typ

/-- Types with the same text are the same but for what the text leaves out (`erase`): same arrays, same names, same
fields, methods, parameters and results in the same order, at every depth. (`_partial`: for names that cannot be
mistaken, and not for what `erase` drops.) -/
theorem text_partial (cur : Str) (t u : Ty) (s : Str) (ht : Good cur t) (hu : Good cur u)
    (h1 : typeText cur t = some s) (h2 : typeText cur u = some s) : erase t = erase u := by
  obtain ⟨m, hm⟩ := read_text cur t s [] ht h1 (by simp [Ends])
  obtain ⟨k, hk⟩ := read_text cur u s [] hu h2 (by simp [Ends])
  have a := hm (m + k) (by omega)
  have b := hk (m + k) (by omega)
  rw [a] at b
  exact (Prod.mk.inj (Option.some.inj b)).1

mutual
theorem text_erase (cur : Str) : ∀ t : Ty, Keyed t → typeText cur (erase t) = typeText cur t
  | .basic b, _ => by cases b <;> rfl
  | .array n e, h => by
    simp only [Keyed] at h
    simp only [erase, typeText, text_erase cur e h]
  | .func _ ps rs, h => by
    simp only [Keyed] at h
    simp only [erase, typeText, params_erase cur ps h.1, result_erase cur rs h.2]
  | .named none name _, _ => by simp only [erase, typeText]
  | .named (some p) name _, _ => by simp only [erase, typeText]
  | .pointer e, h => by
    simp only [Keyed] at h
    simp only [erase, typeText, text_erase cur e h]
  | .slice e, h => by
    simp only [Keyed] at h
    simp only [erase, typeText, text_erase cur e h]
  | .chan _ e, h => by
    simp only [Keyed] at h
    simp only [erase, typeText, text_erase cur e h]
  | .map k v, h => by
    simp only [Keyed] at h
    have hk : (erase k).isString = k.isString := by
      cases k with
      | basic b => cases b <;> first | rfl | (simp [Ty.isAlias] at h)
      | aliased n t => simp [Ty.isAlias] at h
      | named p n a => cases p <;> simp only [erase, Ty.isString]
      | _ => simp only [erase, Ty.isString]
    simp only [erase, typeText, hk, text_erase cur k h.2.1, text_erase cur v h.2.2]
  | .interface .nil, _ => by simp only [erase, eraseMethods]
  | .interface (.cons name va ps rs ms), h => by
    simp only [Keyed] at h
    have := methods_erase cur true (.cons name va ps rs ms) h
    simp only [eraseMethods] at this
    simp only [erase, eraseMethods, typeText, this]
  | .struct fs, h => by
    simp only [Keyed] at h
    simp only [erase, typeText, fields_erase cur true fs h]
  | .tuple _, _ => by simp only [erase, typeText]
  | .absent, _ => by simp only [erase]
  | .aliased _ t, h => by
    simp only [Keyed] at h
    simp only [erase, typeText, text_erase cur t h]
  | .other, _ => by simp only [erase]
theorem params_erase (cur : Str) : ∀ ts : Tys, KeyedAll ts → paramsText cur (eraseAll ts) = paramsText cur ts
  | .nil, _ => by simp only [eraseAll]
  | .cons t ts, h => by
    simp only [KeyedAll] at h
    simp only [eraseAll, paramsText, text_erase cur t h.1, params_erase cur ts h.2]
theorem result_erase (cur : Str) : ∀ ts : Tys, KeyedAll ts → resultText cur (eraseAll ts) = resultText cur ts
  | .nil, _ => by simp only [eraseAll]
  | .cons t .nil, h => by
    simp only [KeyedAll] at h
    simp only [eraseAll, resultText, text_erase cur t h.1]
  | .cons _ (.cons _ _), _ => by simp only [eraseAll, resultText]
theorem fields_erase (cur : Str) (first : Bool) : ∀ fs : Fields, KeyedFields fs →
    fieldsText cur first (eraseFields fs) = fieldsText cur first fs
  | .nil, _ => by simp only [eraseFields]
  | .cons _ _ _ t fs, h => by
    simp only [KeyedFields] at h
    simp only [eraseFields, fieldsText, text_erase cur t h.1, fields_erase cur false fs h.2]
theorem methods_erase (cur : Str) (first : Bool) : ∀ ms : Methods, KeyedMethods ms →
    methodsText cur first (eraseMethods ms) = methodsText cur first ms
  | .nil, _ => by simp only [eraseMethods]
  | .cons _ _ ps rs ms, h => by
    simp only [KeyedMethods] at h
    simp only [eraseMethods, methodsText, params_erase cur ps h.1, result_erase cur rs h.2.1,
      methods_erase cur false ms h.2.2]
end

/-- Conversely types that are the same but for what the text leaves out are written alike, aliases or not, when no map
is keyed by an alias. (`_partial`: see `alias_fails`.) -/
theorem same_text_partial (cur : Str) (t u : Ty) (ht : Keyed t) (hu : Keyed u) (h : erase t = erase u) :
    typeText cur t = typeText cur u := by
  rw [← text_erase cur t ht, ← text_erase cur u hu, h]

/-- A struct whose fields are a slice of `pkg.T`, a map from text to functions, and an array of channels. -/
def sample : Ty :=
  .struct (.cons ['a'] false [] (.slice (.named (some ⟨['x', '/', 'p', 'k', 'g'], ['p', 'k', 'g']⟩) ['T'] .nil))
    (.cons ['b'] true ['j', 's', 'o', 'n'] (.map (.basic .string)
        (.func true (.cons (.basic .int) (.cons (.pointer (.basic .bool)) .nil)) (.cons (.interface .nil) .nil)))
      (.cons ['c'] false [] (.array 12 (.chan .send (.interface (.cons ['M'] false .nil .nil .nil)))) .nil)))

example : Good ['m', 'a', 'i', 'n'] sample ∧ Keyed sample ∧ typeText ['m', 'a', 'i', 'n'] sample = some
    (['s', 't', 'r', 'u', 'c', 't', ' ', '{', 'a', ':', ' ', 'g', 'o', '.', 's', 'l', 'i', 'c', 'e', '(', '@', '"', 'p', 'k', 'g', '.', 'T', '"', ')', ',', ' ', 'b', ':', ' ', 'g', 'o', '.', 's', 'm', 'a', 'p', '(', 'g', 'o', '.', 'f', 'u', 'n', 'c', '(', 'f', 'n', '(', '*', 'c', 'o', 'n', 's', 't', ' ', 'a', 'n', 'y', 'o', 'p', 'a', 'q', 'u', 'e', ',', '?', '*', 'g', 'o', '.', 'r', 'o', 'u', 't', 'i', 'n', 'e', ',', ' ', 'g', 'o', '.', 'i', 'n', 't', ',', ' ', 'g', 'o', '.', 'p', 'o', 'i', 'n', 't', 'e', 'r', '(', 'b', 'o', 'o', 'l', ')', ')', ' ', 'g', 'o', '.', 'a', 'n', 'y', ')', ')', ',', ' ', 'c', ':', ' ', '[', '1', '2', ']', 'g', 'o', '.', 'c', 'h', 'a', 'n', '(', 'g', 'o', '.', 'i', 'n', 't', 'e', 'r', 'f', 'a', 'c', 'e', '(', 's', 't', 'r', 'u', 'c', 't', '{', 'M', ':', ' ', '*', 'c', 'o', 'n', 's', 't', ' ', 'f', 'n', '(', '?', '*', 'g', 'o', '.', 'r', 'o', 'u', 't', 'i', 'n', 'e', ',', '*', 'c', 'o', 'n', 's', 't', ' ', 'a', 'n', 'y', 'o', 'p', 'a', 'q', 'u', 'e', ')', ' ', 'v', 'o', 'i', 'd', '}', ')', ')', '}']) := by
  refine ⟨?_, ?_, by decide +kernel⟩
  · simp [sample, Good, GoodFields, GoodAll, GoodMethods, Ident, punctuation]
  · simp [sample, Keyed, KeyedFields, KeyedAll, KeyedMethods, Ty.isAlias]

/-- The direction of a channel, the arguments of a generic type and the path of a package are not in the text: channels
to send on and to receive from, `List[int]` and `List[string]`, `text/template.T` and `html/template.T` are written
alike. -/
theorem lost_fails :
    typeText ['m', 'a', 'i', 'n'] (.chan .send (.basic .int)) = typeText ['m', 'a', 'i', 'n'] (.chan .receive (.basic .int)) ∧
    typeText ['m', 'a', 'i', 'n'] (.named (some ⟨['m', 'a', 'i', 'n'], ['m', 'a', 'i', 'n']⟩) ['L', 'i', 's', 't'] (.cons (.basic .int) .nil)) =
      typeText ['m', 'a', 'i', 'n'] (.named (some ⟨['m', 'a', 'i', 'n'], ['m', 'a', 'i', 'n']⟩) ['L', 'i', 's', 't'] (.cons (.basic .string) .nil)) ∧
    typeText ['m', 'a', 'i', 'n'] (.named (some ⟨['t', 'e', 'x', 't', '/', 't', 'e', 'm', 'p', 'l', 'a', 't', 'e'], ['t', 'e', 'm', 'p', 'l', 'a', 't', 'e']⟩) ['T'] .nil) =
      typeText ['m', 'a', 'i', 'n'] (.named (some ⟨['h', 't', 'm', 'l', '/', 't', 'e', 'm', 'p', 'l', 'a', 't', 'e'], ['t', 'e', 'm', 'p', 'l', 'a', 't', 'e']⟩) ['T'] .nil) := by decide +kernel

/-- A type this package calls `bool` is written like the predeclared one, and a function whose result is a type called
`void` like one without a result. -/
theorem words_fails :
    typeText ['m', 'a', 'i', 'n'] (.named (some ⟨['m', 'a', 'i', 'n'], ['m', 'a', 'i', 'n']⟩) ['b', 'o', 'o', 'l'] .nil) = typeText ['m', 'a', 'i', 'n'] (.basic .bool) ∧
    typeText ['m', 'a', 'i', 'n'] (.func false .nil (.cons (.named (some ⟨['m', 'a', 'i', 'n'], ['m', 'a', 'i', 'n']⟩) ['v', 'o', 'i', 'd'] .nil) .nil)) =
      typeText ['m', 'a', 'i', 'n'] (.func false .nil .nil) := by decide +kernel

/-- Two names of one type are not always written alike: with `type A = string`, `map[A]int` is a map of another kind
than `map[string]int`. -/
theorem alias_fails :
    typeText ['m', 'a', 'i', 'n'] (.map (.aliased ['A'] (.basic .string)) (.basic .int)) = some ['g', 'o', '.', 'm', 'a', 'p', '(', 'g', 'o', '.', 's', 't', 'r', 'i', 'n', 'g', ',', ' ', 'g', 'o', '.', 'i', 'n', 't', ')'] ∧
    typeText ['m', 'a', 'i', 'n'] (.map (.basic .string) (.basic .int)) = some ['g', 'o', '.', 's', 'm', 'a', 'p', '(', 'g', 'o', '.', 'i', 'n', 't', ')'] := by decide +kernel

mutual
theorem written_ty (cur : Str) : ∀ t : Ty, (typeText cur t).isSome = true ↔ Writable t
  | .basic b => by cases b <;> simp [typeText, Basic.text, Writable]
  | .array n e => by simp [typeText, Writable, written_ty cur e]
  | .func _ ps rs => by
    have h1 := written_params cur ps
    have h2 := written_result cur rs
    simp only [typeText, Writable, ← h1, ← h2]
    cases paramsText cur ps <;> cases resultText cur rs <;> simp
  | .named none name _ => by simp [typeText, Writable]
  | .named (some p) name _ => by
    simp only [typeText, Writable, iff_true]
    split
    · rfl
    · split <;> rfl
  | .pointer e => by simp [typeText, Writable, written_ty cur e]
  | .slice e => by simp [typeText, Writable, written_ty cur e]
  | .chan _ e => by simp [typeText, Writable, written_ty cur e]
  | .map k v => by
    have h1 := written_ty cur k
    have h2 := written_ty cur v
    simp only [typeText, Writable, ← h1, ← h2]
    split
    · rename_i hk
      have : (typeText cur k).isSome = true := by
        unfold Ty.isString at hk
        split at hk
        · rfl
        · cases hk
      simp [this]
    · cases typeText cur k <;> cases typeText cur v <;> simp
  | .interface .nil => by simp [typeText, Writable, WritableMethods]
  | .interface (.cons name va ps rs ms) => by
    have := written_methods cur true (.cons name va ps rs ms)
    simp only [typeText, Writable, ← this, Option.isSome_map]
  | .struct fs => by
    have := written_fields cur true fs
    simp only [typeText, Writable, ← this, Option.isSome_map]
  | .tuple _ => by simp [typeText, Writable]
  | .absent => by simp [typeText, Writable]
  | .aliased _ t => by simp only [typeText, Writable, written_ty cur t]
  | .other => by simp [typeText, Writable]
theorem written_params (cur : Str) : ∀ ts : Tys, (paramsText cur ts).isSome = true ↔ WritableAll ts
  | .nil => by simp [paramsText, WritableAll]
  | .cons t ts => by
    have h1 := written_ty cur t
    have h2 := written_params cur ts
    simp only [paramsText, WritableAll, ← h1, ← h2]
    cases typeText cur t <;> cases paramsText cur ts <;> simp
theorem written_result (cur : Str) : ∀ ts : Tys, (resultText cur ts).isSome = true ↔ ts.length ≤ 1 ∧ WritableAll ts
  | .nil => by simp [resultText, WritableAll, Tys.length]
  | .cons t .nil => by simp [resultText, WritableAll, Tys.length, written_ty cur t]
  | .cons t (.cons u us) => by simp [resultText, Tys.length]
theorem written_fields (cur : Str) (first : Bool) : ∀ fs : Fields,
    (fieldsText cur first fs).isSome = true ↔ WritableFields fs
  | .nil => by simp [fieldsText, WritableFields]
  | .cons _ _ _ t fs => by
    have h1 := written_ty cur t
    have h2 := written_fields cur false fs
    simp only [fieldsText, WritableFields, ← h1, ← h2]
    cases typeText cur t <;> cases fieldsText cur false fs <;> simp
theorem written_methods (cur : Str) (first : Bool) : ∀ ms : Methods,
    (methodsText cur first ms).isSome = true ↔ WritableMethods ms
  | .nil => by simp [methodsText, WritableMethods]
  | .cons _ _ ps rs ms => by
    have h1 := written_params cur ps
    have h2 := written_result cur rs
    have h3 := written_methods cur false ms
    simp only [methodsText, WritableMethods, ← and_assoc (a := rs.length ≤ 1), ← h1, ← h2, ← h3]
    cases paramsText cur ps <;> cases resultText cur rs <;> cases methodsText cur false ms <;> simp
end

/-- The compiler has text for exactly the types without an untyped nil, an unsafe pointer, a type parameter or a
function (or method) of several results anywhere in them; for the others it panics. -/
theorem written (cur : Str) (t : Ty) : typeText cur t ≠ none ↔ Writable t := by
  rw [← written_ty cur t, Option.isSome_iff_ne_none]

example : Writable sample ∧ ¬ Writable (.slice (.func false .nil (.cons (.basic .int) (.cons (.basic .bool) .nil)))) := by
  simp [sample, Writable, WritableFields, WritableAll, WritableMethods, Tys.length]

/-- A Go type the compiler cannot write: `func() (int, error)`. -/
theorem written_fails : typeText ['m', 'a', 'i', 'n'] (.func false .nil
    (.cons (.basic .int) (.cons (.named none ['e', 'r', 'r', 'o', 'r'] .nil) .nil))) = none := by decide +kernel

end Verif.Zgo.Typ
