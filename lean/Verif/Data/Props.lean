import Verif.Data.Lemmas
/-!
# Properties of validation
-/
namespace Verif.Data

/-! ## C145: validation is exact -/

/-- What `group` gives for the checks of a validation. -/
private theorem group_checks (members : List Member) (hd : DistinctRefs members) (hex : AllExported members)
    (checks : List (Member × Constraint)) (hin : ∀ p ∈ checks, p.1 ∈ members) [∀ p : Member × Constraint, Decidable (p.2.Holds p.1.val)] :
    ∃ g, group (.struct (members.map Member.fld)) (checks.map fun p => p.2.check p.1) = some g ∧
      g.map (fun e => (e.fieldName, e.status)) =
        (checks.filter fun p => ¬ p.2.Holds p.1.val).map fun p => (some p.1.fld.info.name, some 400) := by
  induction checks with
  | nil => exact ⟨[], rfl, rfl⟩
  | cons p rest ih =>
    obtain ⟨g, h1, h2⟩ := ih (fun q hq => hin q (List.mem_cons_of_mem _ hq))
    have hp := hin p List.mem_cons_self
    rcases check_cases p.2 p.1 with ⟨hh, hc⟩ | ⟨hh, k, hc⟩
    · refine ⟨g, ?_, ?_⟩
      · simp [group, hc, h1]
      · simp [hh, h2]
    · obtain ⟨m', e1, e2, -, e4⟩ := leaf_locate { value := p.1.fld.ref } k (members.map Member.fld)
        (by intro f hf; obtain ⟨a, ha, rfl⟩ := List.mem_map.1 hf; exact hex a ha)
      obtain ⟨hf, -⟩ := e4 p.1.fld (List.mem_map.2 ⟨p.1, hp, rfl⟩) rfl (by
        intro x hx hxr
        obtain ⟨a, ha, rfl⟩ := List.mem_map.1 hx
        exact hd a ha p.1 hp hxr)
      refine ⟨.leaf m' k :: g, ?_, ?_⟩
      · simp [group, hc, h1, located, Err.isSetter, e1]
      · have e0 : ((Err.leaf m' k).fieldName, (Err.leaf m' k).status) = (some p.1.fld.info.name, some 400) := by
          simp [Err.fieldName, Mirror.fieldName, hf, Err.status]
        rw [List.map_cons, e0, h2, List.filter_cons]
        simp [hh]

/-- `Object(&x).Reports(...)` returns nil exactly if every constraint holds. Missing: structs with a field that is not
exported, for which it panics (`validate_unexported_fails`). -/
theorem validate_nil_partial (value : Ref) (members : List Member) (hd : DistinctRefs members) (hex : AllExported members)
    (checks : List (Member × Constraint)) (hin : ∀ p ∈ checks, p.1 ∈ members) :
    validate value members checks = some none ↔ ∀ p ∈ checks, p.2.Holds p.1.val := by
  classical
  obtain ⟨g, h1, h2⟩ := group_checks members hd hex checks hin
  unfold validate reports
  rw [h1]
  cases g with
  | nil =>
    simp only [Option.map_some, true_iff]
    have := h2.symm
    simp only [List.map_nil, List.map_eq_nil_iff, List.filter_eq_nil_iff] at this
    intro p hp
    simpa using this p hp
  | cons e g =>
    simp only [Option.map_some, Option.some.injEq, reduceCtorEq, false_iff]
    intro hall
    have : checks.filter (fun p => ¬ p.2.Holds p.1.val) = [] := by
      rw [List.filter_eq_nil_iff]; intro p hp; simpa using hall p hp
    rw [this] at h2
    simp at h2

/-- Otherwise it returns an error of status 400 that unwraps to one error for each constraint that does not hold, in the
order in which they were given, each with status 400 and the name of the field it is about. -/
theorem validate_errors_partial (value : Ref) (members : List Member) (hd : DistinctRefs members)
    (hex : AllExported members) (checks : List (Member × Constraint)) (hin : ∀ p ∈ checks, p.1 ∈ members)
    [∀ p : Member × Constraint, Decidable (p.2.Holds p.1.val)] (hbad : ∃ p ∈ checks, ¬ p.2.Holds p.1.val) :
    ∃ e, validate value members checks = some (some e) ∧ e.status = some 400 ∧
      e.unwrap.map (fun e => (e.fieldName, e.status)) =
        (checks.filter fun p => ¬ p.2.Holds p.1.val).map fun p => (some p.1.fld.info.name, some 400) := by
  obtain ⟨g, h1, h2⟩ := group_checks members hd hex checks hin
  unfold validate reports
  rw [h1]
  cases g with
  | nil =>
    exfalso
    obtain ⟨p, hp, hn⟩ := hbad
    have := h2.symm
    simp only [List.map_nil, List.map_eq_nil_iff, List.filter_eq_nil_iff] at this
    exact this p hp (by simpa using hn)
  | cons e g => exact ⟨_, rfl, rfl, h2⟩

/-- A struct with fields `Name string`, `Age int`, `Tags []string`. -/
private def exName : Member := ⟨⟨⟨"Name".toList, 0⟩, ⟨100, 1⟩, true⟩, .str []⟩
private def exAge : Member := ⟨⟨⟨"Age".toList, 16⟩, ⟨116, 2⟩, true⟩, .num 3⟩
private def exTags : Member := ⟨⟨⟨"Tags".toList, 24⟩, ⟨124, 3⟩, true⟩, .slice [.num 1, .num 2, .num 3]⟩

/-- The hypotheses hold of it, `Name` is missing and `Tags` has one item too many. -/
example : DistinctRefs [exName, exAge, exTags] ∧ AllExported [exName, exAge, exTags] ∧
    (validate ⟨100, 9⟩ [exName, exAge, exTags] [(exName, .required), (exAge, .required), (exTags, .atMost 2)]).map
      (fun e => (e.map fun e => e.text)) =
      some (some "please provide 'Name' and please limit 'Tags' to less than 2 items".toList) := by
  refine ⟨?_, ?_, by decide +kernel⟩
  · intro a ha b hb
    simp only [List.mem_cons, List.not_mem_nil, or_false] at ha hb
    rcases ha with rfl | rfl | rfl <;> rcases hb with rfl | rfl | rfl <;> decide
  · intro a ha
    simp only [List.mem_cons, List.not_mem_nil, or_false] at ha
    rcases ha with rfl | rfl | rfl <;> rfl

private theorem locate_unexported (e : Err) (he : e.isSetter = true) (fs : List Fld) (hex : ∃ f ∈ fs, f.exported = false) :
    e.locate fs = none := by
  induction fs generalizing e with
  | nil => obtain ⟨f, hf, -⟩ := hex; simp at hf
  | cons f fs ih =>
    rw [Err.locate]
    cases hx : f.exported with
    | false =>
      have : e.reflect f [] = none := by
        cases e with
        | foreign t => simp [Err.isSetter] at he
        | leaf m k => simp [Err.reflect, Mirror.reflect, hx]
        | reports m es => simp [Err.reflect, hx]
      rw [this]; rfl
    | true =>
      have hex' : ∃ f ∈ fs, f.exported = false := by
        obtain ⟨g, hg, hgx⟩ := hex
        rcases List.mem_cons.1 hg with rfl | h
        · rw [hx] at hgx; simp at hgx
        · exact ⟨g, h, hgx⟩
      have hs : ∀ e', e.reflect f [] = some e' → e'.isSetter = true := by
        intro e' he'
        cases e with
        | foreign t => simp [Err.isSetter] at he
        | leaf m k =>
          simp only [Err.reflect, Option.map_eq_some_iff] at he'
          obtain ⟨_, -, rfl⟩ := he'; rfl
        | reports m es =>
          simp only [Err.reflect] at he'
          split at he'
          · split at he'
            · split at he'
              · simp at he'
              · simp only [Option.some.injEq] at he'; subst he'; rfl
            · simp only [Option.some.injEq] at he'; subst he'; rfl
          · rename_i hnx; exact absurd hx hnx
      cases hr : e.reflect f [] with
      | none => rfl
      | some e' => exact ih e' (hs e' hr) hex'

/-- With a field that is not exported, any constraint that does not hold makes `Reports` panic, whatever the struct and
whichever field the constraint is about. -/
theorem validate_unexported_fails (value : Ref) (members : List Member) (hx : ∃ a ∈ members, a.fld.exported = false)
    (checks : List (Member × Constraint)) (hbad : ∃ p ∈ checks, ¬ p.2.Holds p.1.val) :
    validate value members checks = none := by
  have key : group (.struct (members.map Member.fld)) (checks.map fun p => p.2.check p.1) = none := by
    induction checks with
    | nil => obtain ⟨p, hp, -⟩ := hbad; simp at hp
    | cons p rest ih =>
      rcases check_cases p.2 p.1 with ⟨hh, hc⟩ | ⟨hh, k, hc⟩
      · have : ∃ p ∈ rest, ¬ p.2.Holds p.1.val := by
          obtain ⟨q, hq, hn⟩ := hbad
          rcases List.mem_cons.1 hq with rfl | h
          · exact absurd hh hn
          · exact ⟨q, h, hn⟩
        simp [group, hc, ih this]
      · have : (Err.leaf { value := p.1.fld.ref } k).locate (members.map Member.fld) = none := by
          apply locate_unexported _ rfl
          obtain ⟨a, ha, hax⟩ := hx
          exact ⟨a.fld, List.mem_map.2 ⟨a, ha, rfl⟩, hax⟩
        simp [group, hc, located, Err.isSetter, this]
  unfold validate reports
  rw [key]; rfl

/-- The struct above with a field `mutex` that is not exported. -/
example : ∃ a ∈ [exName, ⟨⟨⟨"mutex".toList, 40⟩, ⟨140, 4⟩, false⟩, .num 0⟩], a.fld.exported = false :=
  ⟨_, List.mem_cons_of_mem _ List.mem_cons_self, rfl⟩

/-! ## C146: validation of a struct within a struct -/

/-- What a `Validate` method with a pointer receiver returned for a field of the struct: an error about that very field. -/
def AboutField (members : List Member) (e : Err) : Prop :=
  ∃ a ∈ members, ∃ es, e = .reports { value := a.fld.ref } es

/-- Reporting the error of a nested struct makes `Reports` panic as soon as that error is about one of the nested struct's
fields, for every struct all of whose fields are exported. -/
theorem validate_nested_fails (value : Ref) (members : List Member) (hex : AllExported members)
    (inner : Member) (hin : inner ∈ members) (fields : List Member) (hd : DistinctRefs fields) (hix : AllExported fields)
    (checks : List (Member × Constraint)) (hchecks : ∀ p ∈ checks, p.1 ∈ fields)
    (hbad : ∃ p ∈ checks, ¬ p.2.Holds p.1.val) (before after : List (Option Err)) :
    ∃ e, validate inner.fld.ref fields checks = some (some e) ∧
      reports value (.struct (members.map Member.fld)) (before ++ some e :: after) = none := by
  classical
  obtain ⟨g, h1, h2⟩ := group_checks fields hd hix checks hchecks
  cases g with
  | nil =>
    exfalso
    obtain ⟨p, hp, hn⟩ := hbad
    have := h2.symm
    simp only [List.map_nil, List.map_eq_nil_iff, List.filter_eq_nil_iff] at this
    exact this p hp (by simpa using hn)
  | cons e g =>
    refine ⟨.reports { value := inner.fld.ref } (e :: g), by simp [validate, reports, h1], ?_⟩
    have hset : e.isSetter = true := by
      have := congrArg (·.head?) h2
      simp only [List.map_cons, List.head?_cons] at this
      cases e with
      | foreign t =>
        exfalso
        cases hf : (checks.filter fun p => ¬ p.2.Holds p.1.val) with
        | nil => rw [hf] at this; simp at this
        | cons p ps => rw [hf] at this; simp [Err.fieldName] at this
      | leaf m k => rfl
      | reports m es => rfl
    have hloc : (Err.reports { value := inner.fld.ref } (e :: g)).locate (members.map Member.fld) = none := by
      have hmem : inner.fld ∈ members.map Member.fld := List.mem_map.2 ⟨inner, hin, rfl⟩
      have hall : ∀ f ∈ members.map Member.fld, f.exported = true := by
        intro f hf; obtain ⟨a, ha, rfl⟩ := List.mem_map.1 hf; exact hex a ha
      generalize members.map Member.fld = fs at hmem hall
      induction fs with
      | nil => simp at hmem
      | cons f fs ih =>
        rw [Err.locate]
        by_cases hr : f.ref = inner.fld.ref
        · simp [Err.reflect, hall f List.mem_cons_self, hr, hset]
        · have : inner.fld ∈ fs := by
            rcases List.mem_cons.1 hmem with h | h
            · rw [h] at hr; exact absurd rfl hr
            · exact h
          simp only [Err.reflect, hall f List.mem_cons_self, hr, if_true, if_false, Option.bind_some]
          exact ih this (fun x hx => hall x (List.mem_cons_of_mem _ hx))
    have hgroup : group (.struct (members.map Member.fld)) (before ++ some (.reports { value := inner.fld.ref } (e :: g)) :: after) = none := by
      induction before with
      | nil =>
        rw [List.nil_append, group]
        simp [located, Err.isSetter, hloc]
      | cons b bs ih =>
        cases b with
        | none => rw [List.cons_append, group]; exact ih
        | some b =>
          rw [List.cons_append, group, ih]
          cases located (.struct (members.map Member.fld)) b <;> rfl
    unfold reports
    rw [hgroup]; rfl

/-- The hypotheses hold of a struct with one field, whose `Name` is missing. -/
example : (validate ⟨100, 7⟩ [exName] [(exName, .required)]).isSome ∧
    reports ⟨100, 8⟩ (.struct [⟨⟨"Inner".toList, 0⟩, ⟨100, 7⟩, true⟩])
      [some (.reports { value := ⟨100, 7⟩ } [.leaf { value := ⟨100, 1⟩ } .missing])] = none := by decide +kernel

/-- Errors that are not about a field of a nested struct are kept as they are: those of other packages, and those about a
value that is not a field of this struct. -/
theorem validate_foreign (value : Ref) (members : List Member) (hex : AllExported members) (errs : List Err)
    (hne : errs ≠ [])
    (h : ∀ e ∈ errs, (∃ t, e = .foreign t) ∨ (∃ m k, e = .leaf m k ∧ ∀ a ∈ members, a.fld.ref ≠ m.value) ∨
      (∃ m es, e = .reports m es ∧ ∀ a ∈ members, a.fld.ref ≠ m.value)) :
    reports value (.struct (members.map Member.fld)) (errs.map some) = some (some (.reports { value := value } errs)) := by
  have hall : ∀ f ∈ members.map Member.fld, f.exported = true := by
    intro f hf; obtain ⟨a, ha, rfl⟩ := List.mem_map.1 hf; exact hex a ha
  have hone : ∀ e ∈ errs, located (.struct (members.map Member.fld)) e = some e := by
    intro e he
    rcases h e he with ⟨t, rfl⟩ | ⟨m, k, rfl, hm⟩ | ⟨m, es, rfl, hm⟩
    · rfl
    · obtain ⟨m', e1, -, e3, -⟩ := leaf_locate m k (members.map Member.fld) hall
      have : m' = m := e3 (by intro f hf; obtain ⟨a, ha, rfl⟩ := List.mem_map.1 hf; exact hm a ha)
      subst this
      simpa [located, Err.isSetter] using e1
    · simp only [located, Err.isSetter, if_true]
      clear he h hne
      have hm' : ∀ f ∈ members.map Member.fld, f.ref ≠ m.value := by
        intro f hf; obtain ⟨a, ha, rfl⟩ := List.mem_map.1 hf; exact hm a ha
      generalize members.map Member.fld = fs at hall hm'
      induction fs with
      | nil => rfl
      | cons f fs ih =>
        rw [Err.locate]
        simp only [Err.reflect, hall f List.mem_cons_self, hm' f List.mem_cons_self, if_true, if_false, Option.bind_some]
        exact ih (fun x hx => hall x (List.mem_cons_of_mem _ hx)) (fun x hx => hm' x (List.mem_cons_of_mem _ hx))
  have hg : group (.struct (members.map Member.fld)) (errs.map some) = some errs := by
    clear h hne
    induction errs with
    | nil => rfl
    | cons e es ih =>
      rw [List.map_cons, group, hone e List.mem_cons_self, ih (fun x hx => hone x (List.mem_cons_of_mem _ hx))]
      rfl
  unfold reports
  rw [hg]
  cases errs with
  | nil => exact absurd rfl hne
  | cons e es => rfl

/-- A database error beside one about a value that is elsewhere. -/
example : reports ⟨100, 9⟩ (.struct [exName.fld]) [some (.foreign "db".toList), some (.leaf { value := ⟨7, 7⟩ } .missing)] =
    some (some (.reports { value := ⟨100, 9⟩ } [.foreign "db".toList, .leaf { value := ⟨7, 7⟩ } .missing])) := by rfl

/-- Reports about something that is not a struct, such as a nil pointer, keep every error as it is, drop the nil ones, and
are nil if nothing is left; the report itself has no field name and status 400. -/
theorem reports_other (value : Ref) (errs : List (Option Err)) :
    (∀ e ∈ errs, e = none) ∧ reports value .other errs = some none ∨
      ∃ e, reports value .other errs = some (some e) ∧ e.unwrap = errs.filterMap id ∧ e.unwrap ≠ [] ∧
        e.fieldName = some [] ∧ e.status = some 400 := by
  have hg : group .other errs = some (errs.filterMap id) := by
    induction errs with
    | nil => rfl
    | cons e es ih => cases e <;> simp [group, located, ih]
  unfold reports
  rw [hg]
  cases hf : errs.filterMap id with
  | nil =>
    refine .inl ⟨fun e he => ?_, rfl⟩
    cases e with
    | none => rfl
    | some e => exact absurd (List.mem_filterMap.2 ⟨some e, he, rfl⟩ : e ∈ errs.filterMap id) (by rw [hf]; simp)
  | cons e es => exact .inr ⟨_, rfl, rfl, by simp [Err.unwrap], rfl, rfl⟩

example : reports ⟨0, 8⟩ .other [none, some (.foreign "db".toList)] =
    some (some (.reports { value := ⟨0, 8⟩ } [.foreign "db".toList])) := by rfl

/-! ## C147: checks of elements -/

/-- `ForEach` on a slice returns the error of the first element that has one, and nil if none has. -/
theorem forEach_first (fn : Ref → Val → Option Err) (xs : List (Ref × Val)) :
    (forEach fn xs = none ↔ ∀ p ∈ xs, fn p.1 p.2 = none) ∧
    (∀ e, forEach fn xs = some e ↔ ∃ before p after, xs = before ++ p :: after ∧
      (∀ q ∈ before, fn q.1 q.2 = none) ∧ fn p.1 p.2 = some e) := by
  induction xs with
  | nil => simp [forEach]
  | cons x xs ih =>
    obtain ⟨r, v⟩ := x
    cases h : fn r v with
    | none =>
      simp only [forEach, h]
      refine ⟨by rw [ih.1]; simp [h], fun e => ?_⟩
      rw [ih.2 e]
      constructor
      · rintro ⟨b, p, a, rfl, hb, hp⟩
        exact ⟨(r, v) :: b, p, a, rfl, (by
          intro q hq
          rcases List.mem_cons.1 hq with rfl | hq
          · exact h
          · exact hb q hq), hp⟩
      · rintro ⟨b, p, a, he, hb, hp⟩
        cases b with
        | nil => simp at he; obtain ⟨rfl, -⟩ := he; rw [h] at hp; simp at hp
        | cons y b =>
          simp at he
          exact ⟨b, p, a, he.2, fun q hq => hb q (List.mem_cons_of_mem _ hq), hp⟩
    | some e' =>
      simp only [forEach, h]
      refine ⟨by simp [h], fun e => ?_⟩
      constructor
      · intro he; simp only [Option.some.injEq] at he; subst he; exact ⟨[], (r, v), xs, rfl, by simp, h⟩
      · rintro ⟨b, p, a, he, hb, hp⟩
        cases b with
        | nil => simp at he; obtain ⟨rfl, -⟩ := he; rw [h] at hp; exact hp
        | cons y b =>
          simp at he
          have := hb y List.mem_cons_self
          rw [← he.1] at this; rw [h] at this; simp at this

example : (forEach missing [(⟨1, 1⟩, .num 3), (⟨2, 1⟩, .num 0), (⟨3, 1⟩, .num 0)]).map Err.text =
    some "please provide all required parameters".toList := by decide +kernel

/-- `ForEach` on a map returns nil exactly if no element has an error, whatever the order of the iteration and wherever the
variable is, for checks that do not depend on where it is. -/
theorem forEachMapped_nil (fn : Ref → Val → Option Err) (hfn : ∀ r r' v, (fn r v).isNone = (fn r' v).isNone)
    (ty fresh : Nat) (vs order : List Val) (hperm : order.Perm vs) (r : Ref) :
    forEachMapped fn ty fresh order = none ↔ ∀ v ∈ vs, fn r v = none := by
  have key : ∀ (xs : List Val) (fresh : Nat), forEachMapped fn ty fresh xs = none ↔ ∀ v ∈ xs, fn r v = none := by
    intro xs
    induction xs with
    | nil => simp [forEachMapped]
    | cons x xs ih =>
      intro fresh
      have hx := hfn ⟨fresh, ty⟩ r x
      cases h : fn ⟨fresh, ty⟩ x with
      | none =>
        simp only [forEachMapped, h, ih]
        rw [h] at hx
        have : fn r x = none := by simpa using hx.symm
        simp [this]
      | some e =>
        simp only [forEachMapped, h]
        rw [h] at hx
        have : fn r x ≠ none := by intro hn; rw [hn] at hx; simp at hx
        simp [this]
  rw [key order fresh]
  exact ⟨fun h v hv => h v (hperm.mem_iff.2 hv), fun h v hv => h v (hperm.mem_iff.1 hv)⟩

/-- `Missing` is such a check. -/
example (r r' : Ref) (v : Val) : (missing r v).isNone = (missing r' v).isNone := by
  cases v <;> simp only [missing] <;> split <;> rfl

/-- An error about an element has no field name after `Reports`, and its text does not say which parameter is at fault:
for all structs, and all elements that are not themselves at the address of a field. -/
theorem element_name_fails (value : Ref) (members : List Member) (hex : AllExported members) (elem : Ref) (v : Val)
    (hel : ∀ a ∈ members, a.fld.ref ≠ elem) (hv : ¬ Provided v) :
    ∃ e, reports value (.struct (members.map Member.fld)) [missing elem v] = some (some e) ∧
      e.unwrap.map Err.fieldName = [some []] ∧ e.text = "please provide all required parameters".toList := by
  have hm : missing elem v = some (.leaf { value := elem } .missing) := by
    cases v <;> simp only [Provided, ne_eq, Decidable.not_not] at hv <;> subst hv <;> rfl
  refine ⟨.reports { value := value } [.leaf { value := elem } .missing], ?_, by rfl, ?_⟩
  · rw [hm]
    exact validate_foreign value members hex [.leaf { value := elem } .missing] (by simp) (by
      intro e he; simp only [List.mem_singleton] at he; subst he
      exact Or.inr (Or.inl ⟨_, _, rfl, hel⟩))
  · rw [Err.text, textsOf, textsOf, Err.text, joinFrom, joinFrom, List.append_nil]
    rfl

example : ∀ a ∈ [exName, exTags], a.fld.ref ≠ (⟨500, 2⟩ : Ref) := by
  intro a ha
  simp only [List.mem_cons, List.not_mem_nil, or_false] at ha
  rcases ha with rfl | rfl <;> decide

/-- `Exists` reports nothing about a nil pointer, and what the function reports about the value it points to otherwise. -/
theorem exists_spec (fn : Ref → Val → Option Err) :
    «exists» none fn = none ∧ ∀ r v, «exists» (some (r, v)) fn = fn r v := ⟨rfl, fun _ _ => rfl⟩

/-! ## C148: the text of a report -/

/-- The text of a report is the list, in English, of the texts of its errors. -/
theorem report_text (m : Mirror) (errs : List Err) (hne : errs ≠ []) :
    InEnglish (errs.map Err.text) (Err.reports m errs).text := by
  have := join_english (errs.map Err.text) (by simpa using hne)
  rw [Err.text, textsOf_eq]
  simpa using this

/-- Three errors. -/
example : (Err.reports ⟨⟨0, 0⟩, [], ⟨[], 0⟩⟩ [.foreign "a".toList, .foreign "b".toList, .foreign "c".toList]).text =
    "a, b and c".toList := by decide +kernel

/-- An error says to limit a field to *less than* `n` items although `n` items are accepted. -/
theorem exceeds_text_fails :
    ∃ (m : Member) (n : Int), (m.val.len : Int) = n ∧ Constraint.check (.atMost n) m = none ∧
      ∃ v e, Constraint.check (.atMost n) { m with val := v } = some e ∧
        ∀ name, name ≠ [] → (e.withFieldNameSetTo name).map Err.text =
          some ("please limit '".toList ++ name ++ "' to less than 2 items".toList) := by
  refine ⟨⟨exTags.fld, .slice [.num 1, .num 2]⟩, 2, rfl, by rfl, .slice [.num 1, .num 2, .num 3],
    .leaf { value := exTags.fld.ref } (.exceeds "2 items".toList), by rfl, ?_⟩
  intro name hn
  cases name with
  | nil => exact absurd rfl hn
  | cons c cs =>
    have h : "' to less than ".toList ++ "2 items".toList = "' to less than 2 items".toList := by decide +kernel
    rw [← h, ← List.append_assoc]
    rfl

/-- The text of the error about a value that is too long names the field, the limit as a decimal number, and what is
counted: the bytes of a string, the items of anything else. -/
theorem exceeds_text (m : Member) (n : Int) (e : Err) (h : Constraint.check (.atMost n) m = some e) (name : Str)
    (hn : name ≠ []) :
    (e.withFieldNameSetTo name).map Err.text = some ("please limit '".toList ++ name ++ "' to less than ".toList ++
      ((toString n).toList ++ (match m.val with | .str _ => " bytes" | _ => " items").toList)) := by
  have hs : showInt n = (toString n).toList := by
    cases n with
    | ofNat n =>
      show _ = (Nat.repr n).toList
      simp [showInt, Nat.repr]
    | negSucc n =>
      show _ = ("-" ++ Nat.repr (n + 1)).toList
      simp [showInt, Nat.repr]
  have hu : m.val.unit = (match m.val with | .str _ => " bytes" | _ => " items").toList := by
    cases m.val <;> rfl
  rw [← hs, ← hu]
  simp only [Constraint.check, exceeds] at h
  split at h
  · have h' := Option.some.inj h
    rw [← h']
    cases name with
    | nil => exact absurd rfl hn
    | cons c cs => rfl
  · cases h

example : ((Constraint.check (.atMost (-3)) ⟨exTags.fld, .str []⟩).bind (·.withFieldNameSetTo ['x'])).map Err.text =
    some "please limit 'x' to less than -3 bytes".toList := by decide +kernel

/-- Setting the name of an error changes its name, and nothing but its name: an error that is later set back has the name,
text and everything else of the first. -/
theorem set_name (m : Mirror) (k : Kind) (name : Str) :
    ∃ e, (Err.leaf m k).withFieldNameSetTo name = some e ∧ e.fieldName = some name ∧ e.status = some 400 ∧
      e.withFieldNameSetTo m.field.name = some (.leaf m k) :=
  ⟨_, rfl, rfl, rfl, rfl⟩

example : ((Err.leaf { value := ⟨1, 1⟩ } .missing).withFieldNameSetTo "Age".toList).map Err.text =
    some "please provide 'Age'".toList := by decide +kernel

end Verif.Data
