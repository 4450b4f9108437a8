import Verif.Pair.Lemmas
import Verif.Data.Props
/-!
# Properties of paired APIs
-/
namespace Verif.Pair

/-- A first struct `{ID int; Names []string; Kind string; Meta struct{A, B int}}` as zero and as a value. -/
private def zFrom : Val := .struct [.scalar 0, .slice none, .scalar 0, .struct [.scalar 0, .scalar 0]]
private def exFrom : Val := .struct [.scalar 7, .slice (some [.scalar 1, .scalar 2]), .scalar 5, .struct [.scalar 8, .scalar 9]]
/-- A second struct `{Titles []string; Number int; Version int; B int}`. -/
private def zInto : Val := .struct [.slice none, .scalar 0, .scalar 0, .scalar 0]
/-- The pairs. -/
private def exMap : List Field :=
  [.copy (.path [0]) (.path [1]), .slice (.path [1]) (.path [0]) (.scalar 0) (.scalar 0) (.copy (.path []) (.path [])),
   .copy (.path [3, 1]) (.path [3]), .copy (.const (.scalar 4)) (.path [2]), .copy (.path [2]) (.const (.scalar 5))]

private theorem exMap_oneToOne : OneToOne exMap := by
  simp [OneToOne, exMap, Field.isFrom, Field.isInto, Loc.Apart, Disjoint, List.cons_prefix_cons]

private theorem exMap_into : Into exMap exFrom zInto := by
  intro m hm
  simp only [exMap, List.mem_cons, List.not_mem_nil, or_false] at hm
  rcases hm with rfl | rfl | rfl | rfl | rfl <;> refine ⟨?_, ?_⟩ <;> intro p hp <;>
    simp only [Field.isFrom, Field.isInto, Loc.path.injEq, reduceCtorEq] at hp <;> subst hp <;>
    first
    | exact .there _ _ _ _ rfl (.here _)
    | exact .there _ _ _ _ rfl (.there _ _ _ _ rfl (.here _))

/-! ## C149: a pairing copies what it pairs -/

/-- The second struct has, in each field paired by `Bool`, `Int`, ..., `String`, the value of the field of the first that it
is paired with; constants are what they were declared to be; what no pair is about is zero. -/
theorem toInto_copies (mapping : List Field) (hs : OneToOne mapping) (zero f : Val) (q : List Nat) (hz : Has zero q) :
    (∀ p, .copy (.path p) (.path q) ∈ mapping → get (toInto mapping zero f) q = get f p) ∧
    (∀ c, .copy (.const c) (.path q) ∈ mapping → get (toInto mapping zero f) q = c) ∧
    ((∀ m ∈ mapping, m.isInto.Apart (.path q)) → get (toInto mapping zero f) q = get zero q) :=
  ⟨fun p hm => toInto_put mapping hs f zero (.copy (.path p) (.path q)) hm q rfl hz,
   fun c hm => toInto_put mapping hs f zero (.copy (.const c) (.path q)) hm q rfl hz,
   fun h => toInto_untouched mapping f zero q h⟩

/-- The same for the way back. -/
theorem toFrom_copies (mapping : List Field) (hs : OneToOne mapping) (zero i : Val) (p : List Nat) (hz : Has zero p) :
    (∀ q, .copy (.path p) (.path q) ∈ mapping → get (toFrom mapping zero i) p = get i q) ∧
    (∀ c, .copy (.path p) (.const c) ∈ mapping → get (toFrom mapping zero i) p = c) ∧
    ((∀ m ∈ mapping, m.isFrom.Apart (.path p)) → get (toFrom mapping zero i) p = get zero p) := by
  rw [← toInto_flip]
  have hs' := oneToOne_flip mapping hs
  refine ⟨fun q hm => ?_, fun c hm => ?_, fun h => ?_⟩
  · exact (toInto_copies _ hs' zero i p hz).1 q (List.mem_map.2 ⟨_, hm, rfl⟩)
  · exact (toInto_copies _ hs' zero i p hz).2.1 c (List.mem_map.2 ⟨_, hm, rfl⟩)
  · refine (toInto_copies _ hs' zero i p hz).2.2 ?_
    intro m hm
    obtain ⟨x, hx, rfl⟩ := List.mem_map.1 hm
    rw [flip_isInto]; exact h x hx

/-- The hypotheses hold of the example. -/
example : OneToOne exMap ∧ Has zInto [1] ∧ get (toInto exMap zInto exFrom) [1] = .scalar 7 ∧
    get (toInto exMap zInto exFrom) [3] = .scalar 9 ∧ get (toInto exMap zInto exFrom) [2] = .scalar 4 :=
  ⟨exMap_oneToOne, .there _ _ _ _ rfl (.here _), rfl, rfl, rfl⟩

/-- `Slice` gives a slice of the same length, each element of which the rule has made from the element at its index. -/
theorem toInto_slice (mapping : List Field) (hs : OneToOne mapping) (zero f : Val) (p q : List Nat) (hz : Has zero q)
    (zf zi : Val) (rule : Field) (hm : .slice (.path p) (.path q) zf zi rule ∈ mapping) (xs : List Val)
    (hxs : get f p = .slice (some xs)) :
    ∃ ys, get (toInto mapping zero f) q = .slice (some ys) ∧ ys.length = xs.length ∧
      ∀ (k : Nat) x, xs[k]? = some x → ys[k]? = some (rule.toInto x zi) := by
  refine ⟨xs.map fun x => rule.toInto x zi, ?_, by simp, ?_⟩
  · rw [toInto_put mapping hs f zero _ hm q rfl hz]
    simp [Field.put, Loc.read, hxs, Val.elems]
  · intro k x hk; simp [hk]

example : get (toInto exMap zInto exFrom) [0] = .slice (some [.scalar 1, .scalar 2]) := rfl

/-! ## C150: there and back -/

private theorem round_trip_aux (mapping : List Field) (hs : OneToOne mapping) (zeroFrom zeroInto f : Val) (m : Field)
    (hm : m ∈ mapping) (p q : List Nat) (hp : m.isFrom = .path p) (hq : m.isInto = .path q)
    (hzf : Has zeroFrom p) (hzi : Has zeroInto q) (hplain : Plain m) (hfit : Fits m (get f p)) :
    Same (get f p) (get (toFrom mapping zeroFrom (toInto mapping zeroInto f)) p) := by
  have h1 := toInto_put mapping hs f zeroInto m hm q hq hzi
  have h2 := toInto_put (mapping.map Field.flip) (oneToOne_flip mapping hs) (toInto mapping zeroInto f) zeroFrom m.flip
    (List.mem_map.2 ⟨m, hm, rfl⟩) p (by rw [flip_isInto, hp]) hzf
  rw [toInto_flip] at h2
  rw [h2]
  cases hplain with
  | copy a b =>
    simp only [Field.isFrom, Field.isInto] at hp hq
    subst hp; subst hq
    simp only [Field.flip, Field.put, Loc.read] at h1 ⊢
    rw [h1]; exact .refl _
  | slice a b zf zi rule hw =>
    simp only [Field.isFrom, Field.isInto] at hp hq
    subst hp; subst hq
    simp only [Field.flip, Field.put, Loc.read] at h1 ⊢
    rw [h1]
    simp only [flip_toInto, Val.elems]
    revert hfit
    generalize get f p = v
    intro hfit
    cases hfit with
    | nil => exact .empty
    | slice _ _ _ _ _ vs hvs =>
      refine .slice _ _ (by simp) ?_
      intro i h h'
      simp only [List.getElem_map]
      exact whole_round_trip hw _ _ _ (hvs _ (List.getElem_mem h))

/-- What is paired comes back: mapping a value to the other API and back leaves every paired field as it was, but for nil
slices, which come back as empty ones. Missing: fields paired by `Map` (`map_fails`), and rules of `Slice` that pair a part
of each element only. -/
theorem round_trip_partial (mapping : List Field) (hs : OneToOne mapping) (zeroFrom zeroInto f : Val)
    (hin : Into mapping zeroFrom zeroInto) (m : Field) (hm : m ∈ mapping) (p q : List Nat) (hp : m.isFrom = .path p)
    (hq : m.isInto = .path q) (hplain : Plain m) (hfit : Fits m (get f p)) :
    Same (get f p) (get (toFrom mapping zeroFrom (toInto mapping zeroInto f)) p) :=
  round_trip_aux mapping hs zeroFrom zeroInto f m hm p q hp hq ((hin m hm).1 p hp) ((hin m hm).2 q hq) hplain hfit

/-- The same for a value of the second API. -/
theorem round_trip_back_partial (mapping : List Field) (hs : OneToOne mapping) (zeroFrom zeroInto i : Val)
    (hin : Into mapping zeroFrom zeroInto) (m : Field) (hm : m ∈ mapping) (p q : List Nat) (hp : m.isFrom = .path p)
    (hq : m.isInto = .path q) (hplain : Plain m) (hfit : Fits m.flip (get i q)) :
    Same (get i q) (get (toInto mapping zeroInto (toFrom mapping zeroFrom i)) q) := by
  have hpl : Plain m.flip := by
    cases hplain with
    | copy a b => exact .copy b a
    | slice a b zf zi rule hw =>
      refine .slice b a zi zf rule.flip ?_
      clear hfit hin hq hp hm
      induction hw with
      | copy => exact .copy
      | slice zf zi rule _ ih => exact .slice zi zf rule.flip ih
  have := round_trip_aux (mapping.map Field.flip) (oneToOne_flip mapping hs) zeroInto zeroFrom i m.flip
    (List.mem_map.2 ⟨m, hm, rfl⟩) q p (by rw [flip_isFrom, hq]) (by rw [flip_isInto, hp]) ((hin m hm).2 q hq)
    ((hin m hm).1 p hp) hpl hfit
  rwa [toFrom_flip, toInto_flip] at this

/-- The hypotheses hold of the example, for the field with a slice. -/
example : OneToOne exMap ∧ Into exMap exFrom zInto ∧
    Plain (.slice (.path [1]) (.path [0]) (.scalar 0) (.scalar 0) (.copy (.path []) (.path []))) ∧
    get (toFrom exMap zFrom (toInto exMap zInto exFrom)) [1] = .slice (some [.scalar 1, .scalar 2]) :=
  ⟨exMap_oneToOne, exMap_into, .slice _ _ _ _ _ .copy, rfl⟩

/-- Nil slices do come back as empty ones. -/
theorem round_trip_nil_fails :
    ∃ mapping zeroFrom zeroInto f, OneToOne mapping ∧ Into mapping zeroFrom zeroInto ∧ f = zeroFrom ∧
      toFrom mapping zeroFrom (toInto mapping zeroInto f) ≠ f := by
  refine ⟨[.slice (.path [0]) (.path [0]) (.scalar 0) (.scalar 0) (.copy (.path []) (.path []))], .struct [.slice none],
    .struct [.slice none], _, by simp [OneToOne], ?_, rfl, ?_⟩
  · intro m hm
    simp only [List.mem_singleton] at hm
    subst hm
    refine ⟨?_, ?_⟩ <;> intro p hp <;> simp only [Field.isFrom, Field.isInto, Loc.path.injEq] at hp <;> subst hp <;>
      exact .there _ _ _ _ rfl (.here _)
  · intro h
    have h' : Val.struct [.slice (some [])] = .struct [.slice none] := h
    simp at h'

/-! ## C151: maps -/

/-- A field paired by `Map`, whatever the rules: a map with entries becomes a map with one, of the zero key and the zero
value. -/
theorem map_fails (mapping : List Field) (hs : OneToOne mapping) (zero f : Val) (p q : List Nat) (hz : Has zero q)
    (zfk zik : Nat) (zfv ziv : Val) (k v : Field) (hm : .map (.path p) (.path q) zfk zik zfv ziv k v ∈ mapping)
    (kvs : List (Nat × Val)) (hkvs : get f p = .map (some kvs)) (hne : kvs ≠ []) :
    get (toInto mapping zero f) q = .map (some [(zik, ziv)]) := by
  rw [toInto_put mapping hs f zero _ hm q rfl hz]
  simp [Field.put, Loc.read, hkvs, Val.entries, mapLoop_eq, hne]

/-- The same on the way back. -/
theorem map_back_fails (mapping : List Field) (hs : OneToOne mapping) (zero i : Val) (p q : List Nat) (hz : Has zero p)
    (zfk zik : Nat) (zfv ziv : Val) (k v : Field) (hm : .map (.path p) (.path q) zfk zik zfv ziv k v ∈ mapping)
    (kvs : List (Nat × Val)) (hkvs : get i q = .map (some kvs)) (hne : kvs ≠ []) :
    get (toFrom mapping zero i) p = .map (some [(zfk, zfv)]) := by
  rw [← toInto_flip]
  exact map_fails _ (oneToOne_flip mapping hs) zero i q p hz zik zfk ziv zfv k.flip v.flip
    (List.mem_map.2 ⟨_, hm, rfl⟩) kvs hkvs hne

/-- Empty maps are mapped to empty maps. -/
theorem map_empty_partial (mapping : List Field) (hs : OneToOne mapping) (zero f : Val) (p q : List Nat) (hz : Has zero q)
    (zfk zik : Nat) (zfv ziv : Val) (k v : Field) (hm : .map (.path p) (.path q) zfk zik zfv ziv k v ∈ mapping)
    (hkvs : (get f p).entries = []) : get (toInto mapping zero f) q = .map (some []) := by
  rw [toInto_put mapping hs f zero _ hm q rfl hz]
  simp [Field.put, Loc.read, hkvs, mapLoop]

/-- A map with two entries. -/
example : get (toInto [.map (.path [0]) (.path [0]) 0 0 (.scalar 0) (.scalar 0) (.copy (.path []) (.path []))
    (.copy (.path []) (.path []))] (.struct [.map none]) (.struct [.map (some [(1, .scalar 2), (3, .scalar 4)])])) [0] =
    .map (some [(0, .scalar 0)]) := rfl

/-! ## C152: errors -/

variable {E : Type}

/-- Nil stays nil. -/
theorem wrap_nil (asError : E → Option (FieldErr E)) (registry : List (E → Option (FieldErr E)))
    (from_ into : Option (List SField)) (mapping : List Field) : wrap asError registry from_ into mapping none = some none :=
  rfl

/-- An error that is not about a field, and that no registered function converts, is returned as it is, whatever the types. -/
theorem wrap_other (asError : E → Option (FieldErr E)) (registry : List (E → Option (FieldErr E)))
    (from_ into : Option (List SField)) (mapping : List Field) (e : E) (h1 : asError e = none)
    (h2 : ∀ fn ∈ registry, fn e = none) : wrap asError registry from_ into mapping (some e) = some (some e) := by
  have : convert registry e = none := by
    unfold convert
    clear h1
    induction registry with
    | nil => rfl
    | cons fn fns ih =>
      rw [List.foldl_cons, h2 fn List.mem_cons_self]
      exact ih (fun g hg => h2 g (List.mem_cons_of_mem _ hg))
  rw [wrap]
  rw [h1, this]; rfl

/-- An error about a field of the second API that the mapping pairs with a field of the first is returned with the name of
that field; one about a field that is not paired is returned as it is. Missing: types with fields that are not exported,
types that are not structs, and paired fields of nested structs, for which see below. -/
theorem wrap_renames_partial (asError : E → Option (FieldErr E)) (registry : List (E → Option (FieldErr E)))
    (from_ into : List SField) (hn : Named into) (hfe : AllExported from_) (hie : AllExported into) (mapping : List Field)
    (hs : OneToOne mapping) (e : E) (he : FieldErr E) (hconv : (asError e).or (convert registry e) = some he) :
    (∀ new, Renames from_ into mapping he.fieldName new →
      wrap asError registry (some from_) (some into) mapping (some e) = some (some (he.withName new))) ∧
    ((¬ ∃ new, Renames from_ into mapping he.fieldName new) →
      wrap asError registry (some from_) (some into) mapping (some e) = some (some e)) := by
  constructor
  · rintro new ⟨m, hm, a, b, sf, si, hf, hi, ha, hb, rfl', rfl⟩
    have hp := pairLoop_hit he from_ hfe b si (hie si (List.mem_of_getElem? hb)) mapping m hm hi a sf ha hf
      (fun x hx hxi => oneToOne_unique mapping hs m x hm hx [b] hi hxi)
    have := intoLoop_hit he (some from_) mapping into hn 0 b si hb rfl' (.ret (he.withName sf.name)) (by simp)
      (by rw [Nat.zero_add]; exact hp)
    rw [wrap]
    rw [hconv]
    simp only [this]
  · intro hno
    have := intoLoop_skip he (some from_) mapping into 0 (by
      intro b s hb hname
      rw [Nat.zero_add]
      refine pairLoop_skip he from_ hfe b s (hie s (List.mem_of_getElem? hb)) mapping ?_
      intro m hm hi k hk hf
      exact hno ⟨from_[k].name, m, hm, k, b, from_[k], s, hf, hi, by simp [hk], hb, hname, rfl⟩)
    rw [wrap]
    rw [hconv]
    simp only [this]

/-- `Named` and `AllExported` of the example, with an error about `Number`. -/
example : wrap (E := Str) (fun e => some ⟨e, id⟩) [] (some [⟨"ID".toList, true⟩, ⟨"Names".toList, true⟩])
    (some [⟨"Titles".toList, true⟩, ⟨"Number".toList, true⟩]) [.copy (.path [0]) (.path [1])] (some "Number".toList) =
    some (some "ID".toList) := by decide +kernel

/-- Of several registered functions that convert an error, the last one counts. -/
theorem convert_last (registry : List (E → Option (FieldErr E))) (e : E) (fn : E → Option (FieldErr E)) (c : FieldErr E)
    (h : fn e = some c) : convert (registry ++ [fn]) e = some c := by
  unfold convert
  rw [List.foldl_append]
  simp [h]

/-- A function that converts nothing changes nothing, wherever it was registered. -/
theorem convert_ignored (before after : List (E → Option (FieldErr E))) (e : E) (fn : E → Option (FieldErr E))
    (h : fn e = none) : convert (before ++ fn :: after) e = convert (before ++ after) e := by
  unfold convert
  rw [List.foldl_append, List.foldl_append, List.foldl_cons, h]

/-- A paired field of a nested struct is not found: an error about it is not renamed, although the mapping pairs it. -/
theorem wrap_nested_fails :
    ∃ (from_ into : List SField) (mapping : List Field), Named into ∧ AllExported from_ ∧ AllExported into ∧
      OneToOne mapping ∧ .copy (.path [0]) (.path [0, 0]) ∈ mapping ∧ from_[0]? = some ⟨"Name".toList, true⟩ ∧
      wrap (E := Str) (fun e => some ⟨e, id⟩) [] (some from_) (some into) mapping (some "Title".toList) =
        some (some "Title".toList) := by
  refine ⟨[⟨"Name".toList, true⟩], [⟨"Meta".toList, true⟩], [.copy (.path [0]) (.path [0, 0])], by simp [Named],
    by simp [AllExported], by simp [AllExported], by simp [OneToOne], by simp, rfl, by decide +kernel⟩

/-- If the second API's type is not a struct, `wrap` panics for every error about a field. -/
theorem wrap_not_struct_fails (asError : E → Option (FieldErr E)) (registry : List (E → Option (FieldErr E)))
    (from_ : Option (List SField)) (mapping : List Field) (e : E) (he : FieldErr E) (h : asError e = some he) :
    wrap asError registry from_ none mapping (some e) = none := by
  rw [wrap]
  rw [h]; rfl

/-- If the first field of the first struct is not exported, `wrap` panics for every error about a paired field. -/
theorem wrap_unexported_fails (asError : E → Option (FieldErr E)) (registry : List (E → Option (FieldErr E)))
    (s : SField) (rest into : List SField) (hs : s.exported = false) (hn : Named into) (hie : AllExported into)
    (mapping : List Field) (e : E) (he : FieldErr E) (hconv : asError e = some he) (new : Str)
    (hr : Renames (s :: rest) into mapping he.fieldName new) :
    wrap asError registry (some (s :: rest)) (some into) mapping (some e) = none := by
  obtain ⟨m, hm, a, b, sf, si, hf, hi, ha, hb, hname, -⟩ := hr
  have hsi := hie si (List.mem_of_getElem? hb)
  have hp : pairLoop he (some (s :: rest)) b si mapping = .panic := by
    induction mapping with
    | nil => simp at hm
    | cons x xs ih =>
      rw [pairLoop]
      simp only [hsi, if_true]
      by_cases hx : x.isInto.isField b = true
      · simp [hx, fromLoop, hs]
      · simp only [hx]
        refine ih ?_
        rcases List.mem_cons.1 hm with rfl | h
        · rw [hi] at hx; simp [Loc.isField] at hx
        · exact h
  have := intoLoop_hit he (some (s :: rest)) mapping into hn 0 b si hb hname .panic (by simp)
    (by rw [Nat.zero_add]; exact hp)
  rw [wrap]
  rw [hconv]
  simp only [Option.some_or, this]

example : Renames [⟨"mutex".toList, false⟩, ⟨"ID".toList, true⟩] [⟨"Number".toList, true⟩] [.copy (.path [1]) (.path [0])]
    "Number".toList "ID".toList :=
  ⟨_, List.mem_cons_self, 1, 0, _, _, rfl, rfl, rfl, rfl, rfl, rfl⟩

/-! ## C153: errors of validation and pairs -/

/-- The type assertion `err.(pair.Error)` for an error of package `data`: it needs `FieldName` and `WithFieldNameSetTo`
(api/data/data.go:138, 170, 195, 217). -/
def dataError (e : Data.Err) : Option (FieldErr Data.Err) :=
  match e with
  | .leaf m k => some ⟨m.fieldName, fun n => .leaf { m with field := { m.field with name := n } } k⟩
  | .foreign _ => none
  | .reports _ _ => none

/-- An error of `Object(...).Reports(...)` is never renamed: whatever the mapping, the structs and what was validated. -/
theorem wrap_report_fails (from_ into : Option (List SField)) (mapping : List Field) (value : Data.Ref)
    (shape : Data.Shape) (errs : List (Option Data.Err)) (r : Option Data.Err)
    (h : Data.reports value shape errs = some r) : wrap dataError [] from_ into mapping r = some r := by
  cases r with
  | none => rfl
  | some e =>
    have : dataError e = none := by
      unfold Data.reports at h
      rw [Option.map_eq_some_iff] at h
      obtain ⟨g, -, hg⟩ := h
      cases g with
      | nil => simp at hg
      | cons x xs => simp only [Option.some.injEq] at hg; subst hg; rfl
    exact wrap_other dataError [] from_ into mapping e this (by simp)

/-- Nor is an error of a check that did not go through `Reports`, since it has no field name. -/
theorem wrap_check_fails (from_ into : List SField) (hn : Named into) (hfe : AllExported from_) (hie : AllExported into)
    (hne : ∀ s ∈ into, s.name ≠ []) (mapping : List Field) (hs : OneToOne mapping) (m : Data.Member)
    (c : Data.Constraint) (e : Data.Err) (h : c.check m = some e) :
    wrap dataError [] (some from_) (some into) mapping (some e) = some (some e) := by
  rcases Data.check_cases c m with ⟨-, hc⟩ | ⟨-, k, hc⟩
  · rw [hc] at h; simp at h
  · rw [hc] at h
    simp only [Option.some.injEq] at h
    subst h
    refine (wrap_renames_partial dataError [] from_ into hn hfe hie mapping hs _ _ rfl).2 ?_
    rintro ⟨new, m', -, a, b, sf, si, -, -, -, hb, hname, -⟩
    exact hne si (List.mem_of_getElem? hb) hname

/-- With a registered function that takes the first error out of a report, the error of a validation is renamed: the error
about the first constraint that does not hold gets the name of the field of the first API. -/
theorem wrap_registered_partial (from_ into : List SField) (hn : Named into) (hfe : AllExported from_)
    (hie : AllExported into) (mapping : List Field) (hs : OneToOne mapping) (value : Data.Ref) (e : Data.Err)
    (errs : List Data.Err) (m : Data.Mirror) (k : Data.Kind) (he : errs.head? = some (.leaf m k))
    (hrep : e = .reports { value := value } errs) (new : Str) (hr : Renames from_ into mapping m.fieldName new) :
    ∃ e', wrap dataError [fun e => e.unwrap.head?.bind dataError] (some from_) (some into) mapping (some e) = some (some e') ∧
      e'.fieldName = some new ∧ e'.status = some 400 := by
  subst hrep
  refine ⟨_, (wrap_renames_partial dataError _ from_ into hn hfe hie mapping hs (.reports { value := value } errs)
    ⟨m.fieldName, fun n => .leaf { m with field := { m.field with name := n } } k⟩ ?_).1 new hr, rfl, rfl⟩
  simp [dataError, convert, Data.Err.unwrap, he]

/-- A validated report with a paired field. -/
example : Renames [⟨"ID".toList, true⟩] [⟨"Number".toList, true⟩] [.copy (.path [0]) (.path [0])]
    (Data.Mirror.fieldName ⟨⟨1, 1⟩, [], ⟨"Number".toList, 0⟩⟩) "ID".toList :=
  ⟨_, List.mem_cons_self, 0, 0, _, _, rfl, rfl, rfl, rfl, rfl, rfl⟩

end Verif.Pair
