import Verif.Sql.DbLemmas
import Verif.Sql.FlatProps

/-! C209: a query means to the database what it means to its author. -/
namespace Verif.Sql

/-- **C209 (partial).** In any program that opens maps of queryable types (C208), for every map whose table has no two
columns of the same name, every record, and every list of proper conditions: building the query does not panic, and the row
in which the record is stored meets the query just when the record meets the conditions. -/
theorem db_query_partial (S : Scalars) (tyOf : Nat → Ty) (hq : ∀ i, Queryable (tyOf i)) (os : List Open) (hk : SameKeyName os) (r : Registry) (ms : List Opened)
    (h : openAll tyOf ⟨[], []⟩ os = some (r, ms)) (i : Nat) (o : Open) (m : Opened) (ho : os[i]? = some o) (hm : ms[i]? = some m)
    (hn : ((m.index ++ m.value).map (·.1)).Nodup) :
    ∃ mk mv, pointers r m o.kid o.vid = some (mk, mv) ∧
      ∀ k v, HasTy (tyOf o.kid) k → HasTy (tyOf o.vid) v → ∃ row, rowOf m.index m.value (tyOf o.kid) (tyOf o.vid) k v = some row ∧
        ∀ cs, allProper (tyOf o.kid) (tyOf o.vid) cs → ∃ es, buildAll mk mv (tyOf o.kid) (tyOf o.vid) cs = some es ∧
          (everyMeets S row es ↔ everyHolds S (tyOf o.kid) (tyOf o.vid) k v cs) := by
  obtain ⟨r', ms', h1, _, h3⟩ := pointers_mean_partial tyOf hq os hk
  rw [h] at h1
  cases h1
  obtain ⟨mk, mv, a1, a2, a3⟩ := h3 i o m ho hm
  refine ⟨mk, mv, a1, ?_⟩
  intro k v tk tv
  obtain ⟨row, b1, b2⟩ := ptrOk_of_stores (hq _).2.1 (hq _).2.1 a2 a3 hn tk tv
  refine ⟨row, b1, ?_⟩
  intro cs hc
  obtain ⟨es, _, e1, e2, _⟩ := buildAll_ok (S := S) b2 cs hc
  exact ⟨es, e1, e2⟩

/-- Scalars compared by their contents, numbers by size. -/
def plain : Scalars where
  eq _ a b := a = b
  le _ a b := match a, b with | .int x, .int y => x ≤ y | _, _ => false
  lt _ a b := match a, b with | .int x, .int y => x < y | _, _ => false

/-- "The name is Ann Lee, or the customer is over 60 and the first line of the address starts with `A`." -/
def exConds : List GCond :=
  [.any [.equals (.val [0]) (.many [.scalar (.opaque [65, 110]), .scalar (.opaque [76])]),
    .all [.cmp .moreThan (.val [2]) (.int 60), .str .hasPrefix (.val [1, 0]) [65]]], .not (.empty (.key []))]

example : (∀ i, Queryable (exTy i)) ∧ SameKeyName [⟨"customers".toList, 0, 1⟩] ∧
    (∃ r m, openAll exTy ⟨[], []⟩ [⟨"customers".toList, 0, 1⟩] = some (r, [m]) ∧ ((m.index ++ m.value).map (·.1)).Nodup) ∧
    allProper (exTy 0) (exTy 1) exConds ∧ HasTy (exTy 1) (.many [.many [.scalar (.opaque [66]), .scalar (.opaque [])], .many [.scalar (.opaque [65, 1]), .scalar (.opaque [])], .scalar (.int 61)]) := by
  refine ⟨?_, ?_, ?_, ?_, ?_⟩
  · intro i
    unfold exTy Queryable
    split <;> simp [Supported, AllSupported, Exported, AllExported, NoOptions, NoOptionsFields, customer, customer.fld']
  · intro a ha b hb
    simp only [List.mem_singleton] at ha hb
    subst ha; subst hb; exact fun _ _ => rfl
  · refine ⟨_, _, rfl, ?_⟩; decide +kernel
  · simp only [allProper, exConds, GCond.Proper, Ref.type, exTy, customer, Ty.part, Fields.ty, Option.bind_some]
    refine ⟨⟨by simp, ⟨_, rfl, by simp [HasTy, HaveTys, Fits], ?_⟩, ⟨⟨.int, by simp [Ty.part], by simp [Numeric], by simp [Fits]⟩, by simp [Ty.part]⟩, trivial⟩, ⟨.string, rfl⟩, trivial⟩
    intro path f
    simp [columnsOf, columnsOfFields, Ty.part]
  · simp [exTy, customer, HasTy, HaveTys, Fits]

/-- **C209**, the full claim: for every table and every condition that type checks, whatever the part it looks at, a record
is found just when it meets the conditions. -/
def DbQuery (proper : Ty → Ty → List GCond → Prop) : Prop :=
  ∀ (S : Scalars) (kt vt : Ty) (key : List Char), Queryable kt → Queryable vt → ∀ mk mv ci cv,
    walk kt [] (rootMeta key kt) = some mk → walk vt [] (rootMeta "value".toList vt) = some mv →
    columnsOf kt [] (rootMeta key kt) = some ci → columnsOf vt [] (rootMeta "value".toList vt) = some cv →
    ∀ k v row cs, HasTy kt k → HasTy vt v → proper kt vt cs → rowOf ci cv kt vt k v = some row →
      ∃ es, buildAll mk mv kt vt cs = some es ∧ (everyMeets S row es ↔ everyHolds S kt vt k v cs)

/-- **C209 fails** for `Empty` of a struct: the database is asked about its first column only, so a customer without a first
name counts as one without a name. -/
theorem db_empty_fails : ¬ DbQuery (fun _ vt cs => ∃ t, vt.part [0] = some t ∧ cs = [.empty (.val [0])]) := by
  intro h
  have := h plain (.scalar .string) customer "id".toList (by simp [Queryable, Supported, Exported, NoOptions])
    (by simp [Queryable, Supported, AllSupported, Exported, AllExported, NoOptions, NoOptionsFields, customer, customer.fld'])
    _ _ _ _ rfl rfl rfl rfl (.scalar (.opaque [1])) (.many [.many [.scalar (.opaque []), .scalar (.opaque [76])], .many [.scalar (.opaque []), .scalar (.opaque [])], .scalar (.int 0)]) _
    [.empty (.val [0])] (by simp [HasTy, Fits]) (by simp [customer, HasTy, HaveTys, Fits]) ⟨_, rfl, rfl⟩ rfl
  obtain ⟨es, h1, h2⟩ := this
  rw [buildAll, GCond.build] at h1
  have h3 : es = [.empty ("name_first".toList, .string)] := by
    have : (some [SExpr.empty ("name_first".toList, .string)] : Option (List SExpr)) = some es := by
      rw [← h1]; rfl
    exact (Option.some.inj this).symm
  rw [h3] at h2
  have h4 := h2.mp ⟨⟨(.string, .opaque []), by decide +kernel, by decide +kernel⟩, trivial⟩
  simp [everyHolds, GCond.Holds, Ref.target, customer, Ty.part, Fields.ty, Val.part, zeroVal, zeroVals, goEq, goEqFields, plain] at h4

/-- A value with a field of the same name as the key column. -/
def clash : Ty := .struct (.cons ⟨['I', 'D'], [], [], true, false⟩ (.scalar .int8) .nil)

/-- **C209 fails** for a table with two columns of one name, which nothing prevents: the key and the field `ID` of the value
are both called `id`, and the database looks in the first. -/
theorem db_clash_fails : ¬ DbQuery (fun kt vt cs => allProper kt vt cs) := by
  intro h
  have := h plain (.scalar .int8) clash "id".toList (by simp [Queryable, Supported, Exported, NoOptions])
    (by simp [Queryable, Supported, AllSupported, Exported, AllExported, NoOptions, NoOptionsFields, clash])
    _ _ _ _ rfl rfl rfl rfl (.scalar (.int 1)) (.many [.scalar (.int 2)]) _
    [.cmp .max (.val [0]) (.int 1)] (by simp [HasTy, Fits]) (by simp [clash, HasTy, HaveTys, Fits])
    (by simp [allProper, GCond.Proper, Ref.type, clash, Ty.part, Fields.ty, Numeric, Fits]) rfl
  obtain ⟨es, h1, h2⟩ := this
  have h3 : es = [.wher .max ("id".toList, .int8) (.int8, .int 1)] := by
    have : (some [SExpr.wher .max ("id".toList, .int8) (.int8, .int 1)] : Option (List SExpr)) = some es := by
      rw [← h1]; rfl
    exact (Option.some.inj this).symm
  rw [h3] at h2
  have h4 := h2.mp ⟨⟨(.int8, .int 1), by decide +kernel, rfl, by simp [WhereOp.Holds, plain]⟩, trivial⟩
  simp [everyHolds, GCond.Holds, Ref.target, clash, Ty.part, Fields.ty, Val.part, WhereOp.Holds, plain] at h4

/-- **C209 fails** for a disjunction of nothing: it holds of no record, but every row meets it. -/
theorem db_no_cases_fails (S : Scalars) (mk mv : Mirror) (kt vt : Ty) (k v : Val) (row : Row) :
    ∃ e, GCond.build mk mv kt vt (.any []) = some e ∧ e.Meets S row ∧ ¬ GCond.Holds S kt vt k v (.any []) :=
  ⟨.value true, rfl, by simp [SExpr.Meets], by simp [GCond.Holds, someHolds]⟩

/-- **C209 fails** for `Equals` of a part that is stored in no column, such as an empty struct: it panics. -/
theorem db_no_column_fails : dbIndex (some []) true (.struct .nil) (.many []) = none := rfl

/-- **C209 fails** for `Equals` of a struct with a field that is not exported: there are more columns than values, and it
panics. -/
theorem db_unexported_fails : ((columnsOf mixed [] (rootMeta "value".toList mixed)).bind fun cs =>
    dbIndex (some cs) true mixed (.many [.scalar (.int 3), .scalar (.bool true)])).isNone = true := by decide +kernel

end Verif.Sql
