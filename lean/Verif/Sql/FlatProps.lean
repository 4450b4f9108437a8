import Verif.Sql.FlatLemmas

/-! Properties of flattening records into columns: C23, C56. -/
namespace Verif.Sql

/-- **C23 (partial).** For every type built from scalars, structs and arrays, of any depth, all of whose fields are
exported, and every value of it: the value flattens into column values; their number and types are those of the columns
of the type, whatever the field is called; and reading them back, from in front of any further values, restores the value
and leaves those. -/
theorem flatten_round_trip_partial (t : Ty) (v : Val) (he : Exported t) (h : HasTy t v) :
    ∃ xs, valuesOf t v = some xs ∧ (∀ rest, decode t (xs ++ rest) = some (v, rest)) ∧
      ∀ path f, ∃ cols, columnsOf t path f = some cols ∧ cols.length = xs.length ∧ cols.map (·.2) = xs.map (·.1) := by
  obtain ⟨xs, h1, h2, h3⟩ := flatten_ty t v he h
  refine ⟨xs, h1, h2, ?_⟩
  intro path f
  obtain ⟨cols, c1, c2⟩ := h3 path f
  refine ⟨cols, c1, ?_, c2⟩
  have := congrArg List.length c2
  simpa using this

/-- **C23**, the full claim: the same with fields that are not exported. -/
def FlattenRoundTrip : Prop :=
  ∀ (t : Ty) (v : Val), HasTy t v → ∃ xs, valuesOf t v = some xs ∧ (∀ rest, decode t (xs ++ rest) = some (v, rest))

/-- A struct with one exported and one other field. -/
def mixed : Ty := .struct (.cons ⟨['A'], [], [], true, false⟩ (.scalar .int8) (.cons ⟨['b'], [], [], false, false⟩ (.scalar .bool) .nil))

/-- **C23 fails**: a record with a field that is not exported cannot be read back at all. -/
theorem flatten_round_trip_fails : ¬ FlattenRoundTrip := by
  intro h
  obtain ⟨xs, _, h2⟩ := h mixed (.many [.scalar (.int 3), .scalar (.bool true)]) (by simp [mixed, HasTy, HaveTys, Fits])
  have h3 := h2 []
  have : ∀ ys, decode mixed ys = none := by
    intro ys
    rw [mixed, decode]
    simp only [zeroSize, zeroSizeFields, Bool.false_and]
    rw [if_neg (by simp), decodeFields]
    simp only [if_true]
    rw [show decodeFields (.cons ⟨['b'], [], [], false, false⟩ (.scalar .bool) .nil) = fun _ => none by funext l; rw [decodeFields]; simp]
    cases decode (.scalar .int8) ys <;> rfl
  rw [this] at h3
  cases h3

/-- **C23 fails** for the number of columns too: such a record has two columns but one column value. -/
theorem column_count_fails :
    (columnsOf mixed [] ⟨['X'], [], [], true, true⟩).map List.length = some 2 ∧
    (valuesOf mixed (.many [.scalar (.int 3), .scalar (.bool true)])).map List.length = some 1 := by
  decide +kernel

/-- A nested type with an array, an embedded struct and an empty struct. -/
def nested : Ty := .struct (.cons ⟨['A'], [], [], true, false⟩ (.array 2 (.struct (.cons ⟨['B'], [], [], true, true⟩ (.scalar .int8) .nil)))
  (.cons ⟨['C'], [], [], true, false⟩ (.struct .nil) (.cons ⟨['D'], [], [], true, false⟩ (.scalar .string) .nil)))

example : Exported nested ∧ HasTy nested (.many [.many [.many [.scalar (.int 3)], .many [.scalar (.int (-4))]], .many [], .scalar (.opaque [1])]) ∧
    valuesOf nested (.many [.many [.many [.scalar (.int 3)], .many [.scalar (.int (-4))]], .many [], .scalar (.opaque [1])]) =
      some [(.int8, .int 3), (.int8, .int (-4)), (.string, .opaque [1])] := by
  refine ⟨by simp [nested, Exported, AllExported], by simp [nested, HasTy, HaveTys, Fits], by decide +kernel⟩

/-! ### C56: column names -/

/-- **C56 (partial).** With at most one level of named nesting (embedded structs do not count) and no arrays, the columns
have the documented names. -/
theorem column_names_partial (t : Ty) (f : Meta) (h : Shallow f.anonymous t) :
    ∃ cols, columnsOf t [] f = some cols ∧ cols.map (·.1) = docNames t [] (docOwn f) f.anonymous :=
  shallow_names t f h

/-- **C56**, the full claim. -/
def ColumnNames : Prop :=
  ∀ (t : Ty) (v : Val) (f : Meta), Exported t → HasTy t v → (columnsOf t [] f).map (List.map (·.1)) = some (docNames t [] (docOwn f) f.anonymous)

/-- A field of a given name. -/
def fld (c : Char) : Meta := ⟨[c], [], [], true, false⟩

/-- **C56 fails**: with two levels of nesting the outer name is repeated (`a_a_b_c` for `a_b_c`). -/
theorem column_names_fails : ¬ ColumnNames := by
  intro h
  have := h (.struct (.cons (fld 'b') (.struct (.cons (fld 'c') (.scalar .bool) .nil)) .nil)) (.many [.many [.scalar (.bool true)]]) (fld 'a')
    (by simp [Exported, AllExported, fld]) (by simp [HasTy, HaveTys, Fits])
  revert this
  decide +kernel

/-- **C56 fails** for an array inside a nested struct: `a_a_b1` for `a_b1`. -/
theorem array_names_fails :
    columnsOf (.struct (.cons (fld 'b') (.array 1 (.scalar .bool)) .nil)) [] (fld 'a') = some [("a_a_b1".toList, .bool)] ∧
    docNames (.struct (.cons (fld 'b') (.array 1 (.scalar .bool)) .nil)) [] (docOwn (fld 'a')) false = ["a_b1".toList] := by
  decide +kernel

example : Shallow false (.struct (.cons (fld 'b') (.scalar .bool) (.cons ⟨['E'], [], [], true, true⟩ (.struct (.cons ⟨['c'], [], "x,y".toList, true, false⟩ (.scalar .int) .nil)) .nil))) ∧
    (columnsOf (.struct (.cons (fld 'b') (.scalar .bool) (.cons ⟨['E'], [], [], true, true⟩ (.struct (.cons ⟨['c'], [], "x,y".toList, true, false⟩ (.scalar .int) .nil)) .nil))) [] (fld 'a')) =
      some [("a_b".toList, .bool), ("a_x".toList, .int64)] := by
  refine ⟨by simp [Shallow, LeafyFields, Leafy], by decide +kernel⟩

end Verif.Sql
