import Verif.Sql.WalkLemmas

/-! C208: a pointer into the key or value given to a query function stands for the columns where that part is stored. -/
namespace Verif.Sql

/-- **C208 (partial), one record.** For every type built from scalars, structs and arrays, all of whose fields are exported
and whose nested structs and arrays have no `sql` tag with options: opening it does not panic, and every part of it, at any
depth, is registered with just the columns it is stored in. -/
theorem part_columns_partial (t : Ty) (f : Meta) (hs : Supported t) (he : Exported t) (hn : NoOptions f t) :
    ∃ m cols, walk t [] f = some m ∧ columnsOf t [] f = some cols ∧
      ∀ p, (t.part p).isSome → ∃ cs, mirrorAt m p = some cs ∧ Stores t cols p cs := by
  obtain ⟨m, hm⟩ := Option.isSome_iff_exists.mp (walk_some t hs [] f)
  obtain ⟨cols, hc⟩ := Option.isSome_iff_exists.mp (columns_some t hs [] f)
  refine ⟨m, cols, hm, hc, ?_⟩
  intro p hp
  obtain ⟨s, hp⟩ := Option.isSome_iff_exists.mp hp
  obtain ⟨m', cols', cs, path', f', a1, a2, a3, a4, before, after, a5, a6⟩ := part_ok t hs he [] f hn p s hp
  rw [hm] at a1; cases a1
  rw [hc] at a2; cases a2
  refine ⟨cs, a3, before, after, a5, ?_⟩
  intro v w s' hv hs' hw
  rw [hp] at hs'; cases hs'
  obtain ⟨b1, xs, l, r, b2, b3, b4, b5, b6⟩ := a6 v w hv hw
  refine ⟨xs, l, r, b3, b2, b4, b5, ?_, b6⟩
  have he' : Exported s := exported_part p t he hp
  obtain ⟨ys, c1, _, c3⟩ := flatten_ty s w he' b1
  obtain ⟨cc, c4, c5⟩ := c3 path' f'
  rw [b2] at c1; cases c1
  rw [a4] at c4; cases c4
  exact c5.symm

/-! ### Programs that open several maps -/

theorem sentinelOf_assert {s s' : Sentinels} {table : List Char} {id : Nat} {t : Ty} {f : Meta} (h : assertSentinel s table id t f = some s') :
    (∀ k m, sentinelOf s k = some m → sentinelOf s' k = some m) ∧
    (∀ k m, sentinelOf s' k = some m → sentinelOf s k = some m ∨ (k = (table, id) ∧ walk t [] f = some m)) ∧
    (sentinelOf s' (table, id)).isSome := by
  rw [assertSentinel] at h
  cases hs : sentinelOf s (table, id) with
  | some m => rw [hs] at h; cases h; exact ⟨fun _ _ h => h, fun _ _ h => .inl h, by rw [hs]; rfl⟩
  | none =>
    rw [hs] at h
    cases hw : walk t [] f with
    | none => rw [hw] at h; cases h
    | some m =>
      rw [hw] at h
      cases h
      refine ⟨?_, ?_, ?_⟩
      · intro k m' hk
        rw [sentinelOf, if_neg (by intro he; rw [← he, hs] at hk; cases hk), hk]
      · intro k m' hk
        rw [sentinelOf] at hk
        split at hk
        · rename_i he; cases hk; exact .inr ⟨he.symm, rfl⟩
        · exact .inl hk
      · rw [sentinelOf, if_pos rfl]; rfl

/-- Every entry of the registries comes from one of the maps opened. -/
def RegOk (tyOf : Nat → Ty) (all : List Open) (r : Registry) : Prop :=
  (∀ k m, sentinelOf r.index k = some m → ∃ o ∈ all, k = ((cutTable o.tag).1, o.kid) ∧
    walk (tyOf o.kid) [] (rootMeta (cutTable o.tag).2 (tyOf o.kid)) = some m) ∧
  (∀ k m, sentinelOf r.value k = some m → walk (tyOf k.2) [] (rootMeta "value".toList (tyOf k.2)) = some m)

theorem openAll_ok (tyOf : Nat → Ty) (hs : ∀ i, Supported (tyOf i)) (all : List Open) : ∀ (os : List Open) (r : Registry), (∀ o ∈ os, o ∈ all) → RegOk tyOf all r →
    ∃ r' ms, openAll tyOf r os = some (r', ms) ∧ RegOk tyOf all r' ∧
      (∀ k m, sentinelOf r.index k = some m → sentinelOf r'.index k = some m) ∧ (∀ k m, sentinelOf r.value k = some m → sentinelOf r'.value k = some m) ∧
      ms.length = os.length ∧ ∀ (i : Nat) (o : Open) (m : Opened), os[i]? = some o → ms[i]? = some m → m.table = (cutTable o.tag).1 ∧
        columnsOf (tyOf o.kid) [] (rootMeta (cutTable o.tag).2 (tyOf o.kid)) = some m.index ∧
        columnsOf (tyOf o.vid) [] (rootMeta "value".toList (tyOf o.vid)) = some m.value ∧
        (sentinelOf r'.index (m.table, o.kid)).isSome ∧ (sentinelOf r'.value (m.table, o.vid)).isSome := by
  intro os
  induction os with
  | nil => intro r _ h; exact ⟨r, [], rfl, h, fun _ _ h => h, fun _ _ h => h, rfl, by simp⟩
  | cons o os ih =>
    intro r hall h
    have hi : (assertSentinel r.index (cutTable o.tag).1 o.kid (tyOf o.kid) (rootMeta (cutTable o.tag).2 (tyOf o.kid))).isSome := by
      rw [assertSentinel]; split
      · rfl
      · rw [Option.isSome_map]; exact walk_some _ (hs _) _ _
    have hv : (assertSentinel r.value (cutTable o.tag).1 o.vid (tyOf o.vid) (rootMeta "value".toList (tyOf o.vid))).isSome := by
      rw [assertSentinel]; split
      · rfl
      · rw [Option.isSome_map]; exact walk_some _ (hs _) _ _
    obtain ⟨ri, hi⟩ := Option.isSome_iff_exists.mp hi
    obtain ⟨rv, hv⟩ := Option.isSome_iff_exists.mp hv
    obtain ⟨ci, hci⟩ := Option.isSome_iff_exists.mp (columns_some (tyOf o.kid) (hs _) [] (rootMeta (cutTable o.tag).2 (tyOf o.kid)))
    obtain ⟨cv, hcv⟩ := Option.isSome_iff_exists.mp (columns_some (tyOf o.vid) (hs _) [] (rootMeta "value".toList (tyOf o.vid)))
    obtain ⟨i1, i2, i3⟩ := sentinelOf_assert hi
    obtain ⟨v1, v2, v3⟩ := sentinelOf_assert hv
    have hopen : openMap tyOf r o = some (⟨ri, rv⟩, ⟨(cutTable o.tag).1, ci, cv⟩) := by rw [openMap, hi, hv, hci, hcv]
    have hr : RegOk tyOf all ⟨ri, rv⟩ := by
      constructor
      · intro k m hk
        rcases i2 k m hk with hk | ⟨hk, hw⟩
        · exact h.1 k m hk
        · exact ⟨o, hall o (by simp), hk, hw⟩
      · intro k m hk
        rcases v2 k m hk with hk | ⟨hk, hw⟩
        · exact h.2 k m hk
        · rw [hk]; exact hw
    obtain ⟨r', ms, j1, j2, j3, j4, j5, j6⟩ := ih ⟨ri, rv⟩ (fun o h => hall o (List.mem_cons_of_mem _ h)) hr
    refine ⟨r', _ :: ms, by rw [openAll, hopen]; dsimp only; rw [j1], j2, fun k m hk => j3 k m (i1 k m hk), fun k m hk => j4 k m (v1 k m hk), by simp [j5], ?_⟩
    intro n o' m ho hm
    cases n with
    | zero =>
      simp only [List.getElem?_cons_zero, Option.some.injEq] at ho hm
      subst ho; subst hm
      obtain ⟨a, ha⟩ := Option.isSome_iff_exists.mp i3
      obtain ⟨b, hb⟩ := Option.isSome_iff_exists.mp v3
      exact ⟨rfl, hci, hcv, by rw [j3 _ _ ha]; rfl, by rw [j4 _ _ hb]; rfl⟩
    | succ n =>
      simp only [List.getElem?_cons_succ] at ho hm
      exact j6 n o' m ho hm

/-- Types whose records can be stored and queried: built from scalars, structs and arrays, all fields exported, and no
options in the `sql` tags of nested structs and arrays. -/
def Queryable (t : Ty) : Prop := Supported t ∧ Exported t ∧ NoOptions ⟨[], [], [], true, false⟩ t

/-- Tables that share a name and a type of key also share the name of the key column. -/
def SameKeyName (os : List Open) : Prop :=
  ∀ a ∈ os, ∀ b ∈ os, (cutTable a.tag).1 = (cutTable b.tag).1 → a.kid = b.kid → (cutTable a.tag).2 = (cutTable b.tag).2

/-- What C208 claims of the maps a program opens, in the order it opens them: no call panics, and for every map the
pointers given to its query functions are registered, each part of the key and of the value with just the columns of this
map's table in which it is stored. -/
def PointersMean (tyOf : Nat → Ty) (os : List Open) : Prop :=
  ∃ r ms, openAll tyOf ⟨[], []⟩ os = some (r, ms) ∧ ms.length = os.length ∧
    ∀ (i : Nat) (o : Open) (m : Opened), os[i]? = some o → ms[i]? = some m → ∃ mi mv, pointers r m o.kid o.vid = some (mi, mv) ∧
      (∀ p, ((tyOf o.kid).part p).isSome → ∃ cs, mirrorAt mi p = some cs ∧ Stores (tyOf o.kid) m.index p cs) ∧
      (∀ p, ((tyOf o.vid).part p).isSome → ∃ cs, mirrorAt mv p = some cs ∧ Stores (tyOf o.vid) m.value p cs)

/-- **C208 (partial).** Whatever maps a program opens, of whatever queryable types, as long as tables of the same name and
key type also agree on the name of the key column. -/
theorem pointers_mean_partial (tyOf : Nat → Ty) (hq : ∀ i, Queryable (tyOf i)) (os : List Open) (hk : SameKeyName os) : PointersMean tyOf os := by
  obtain ⟨r, ms, h1, h2, _, _, h5, h6⟩ := openAll_ok tyOf (fun i => (hq i).1) os os ⟨[], []⟩ (fun _ h => h) ⟨by intro k m h; simp [sentinelOf] at h, by intro k m h; simp [sentinelOf] at h⟩
  refine ⟨r, ms, h1, h5, ?_⟩
  intro i o m ho hm
  obtain ⟨a1, a2, a3, a4, a5⟩ := h6 i o m ho hm
  obtain ⟨mi, b1⟩ := Option.isSome_iff_exists.mp a4
  obtain ⟨mv, b2⟩ := Option.isSome_iff_exists.mp a5
  refine ⟨mi, mv, by rw [pointers, b1, b2], ?_, ?_⟩
  · obtain ⟨o', c1, c2, c3⟩ := h2.1 _ _ b1
    obtain ⟨c4, c5⟩ := Prod.mk.inj c2
    rw [a1] at c4
    have c6 := hk o (List.mem_of_getElem? ho) o' c1 c4 c5
    rw [← c5, ← c6] at c3
    obtain ⟨m', cols, d1, d2, d3⟩ := part_columns_partial (tyOf o.kid) (rootMeta (cutTable o.tag).2 (tyOf o.kid)) (hq _).1 (hq _).2.1 (noOptions_meta _ _ _ (hq _).2.2 (by simp [rootMeta]))
    rw [c3] at d1; cases d1
    rw [a2] at d2; cases d2
    exact d3
  · have c3 := h2.2 _ _ b2
    dsimp only at c3
    obtain ⟨m', cols, d1, d2, d3⟩ := part_columns_partial (tyOf o.vid) (rootMeta "value".toList (tyOf o.vid)) (hq _).1 (hq _).2.1 (noOptions_meta _ _ _ (hq _).2.2 (by simp [rootMeta]))
    rw [c3] at d1; cases d1
    rw [a3] at d2; cases d2
    exact d3

/-- A table of customers with a nested name and two addresses. -/
def customer : Ty := .struct (.cons (fld' "Name") (.struct (.cons (fld' "First") (.scalar .string) (.cons (fld' "Last") (.scalar .string) .nil)))
  (.cons (fld' "Lines") (.array 2 (.scalar .string)) (.cons (fld' "Age") (.scalar .int) .nil)))
where
  /-- An exported field. -/
  fld' (s : String) : Meta := ⟨s.toList, [], [], true, false⟩

/-- The types of the examples: strings, customers and numbers. -/
def exTy : Nat → Ty
  | 0 => .scalar .string
  | 1 => customer
  | _ => .scalar .int64

example : (∀ i, Queryable (exTy i)) ∧ SameKeyName [⟨"customers".toList, 0, 1⟩, ⟨"orders/nr".toList, 2, 1⟩] ∧
    (openAll exTy ⟨[], []⟩ [⟨"customers".toList, 0, 1⟩, ⟨"orders/nr".toList, 2, 1⟩]).map (fun r => r.2.map (·.index)) =
      some [[("id".toList, .string)], [("nr".toList, .int64)]] ∧
    ((openAll exTy ⟨[], []⟩ [⟨"customers".toList, 0, 1⟩]).bind fun r => (sentinelOf r.1.value ("customers".toList, 1)).bind fun m => mirrorAt m [0, 1]) =
      some [("name_last".toList, .string)] := by
  refine ⟨?_, ?_, by decide +kernel, by decide +kernel⟩
  · intro i
    unfold exTy Queryable
    split <;> simp [Supported, AllSupported, Exported, AllExported, NoOptions, NoOptionsFields, customer, customer.fld']
  · intro a ha b hb
    simp only [List.mem_cons, List.not_mem_nil, or_false] at ha hb
    rcases ha with rfl | rfl <;> rcases hb with rfl | rfl <;> decide +kernel

/-- **C208**, the full claim: without conditions on tags and names. -/
def PointersAlwaysMean : Prop := ∀ (tyOf : Nat → Ty) (os : List Open), (∀ i, Supported (tyOf i)) → PointersMean tyOf os

/-- **C208 fails**: once a map has been opened on `users/id`, queries of a map on `users/uid` with the same type of key name
a column `id`, which this table does not have. -/
theorem pointers_same_table_fails :
    ((openAll exTy ⟨[], []⟩ [⟨"users/id".toList, 0, 1⟩, ⟨"users/uid".toList, 0, 2⟩]).bind fun r =>
      r.2[1]?.bind fun m => (pointers r.1 m 0 2).bind fun x => (mirrorAt x.1 []).map fun cs => (m.index, cs)) =
      some ([("uid".toList, .string)], [("id".toList, .string)]) := by decide +kernel

/-- The full claim is false for that reason. -/
theorem pointers_mean_fails : ¬ PointersAlwaysMean := by
  intro h
  have hs : ∀ i, Supported (exTy i) := by
    intro i
    unfold exTy
    split <;> simp [Supported, AllSupported, customer]
  obtain ⟨r, ms, h1, _, h3⟩ := h exTy [⟨"users/id".toList, 0, 1⟩, ⟨"users/uid".toList, 0, 2⟩] hs
  have key := pointers_same_table_fails
  rw [h1, Option.bind_some] at key
  dsimp only at key
  obtain ⟨m, k1, key⟩ := Option.bind_eq_some_iff.mp key
  obtain ⟨x, k2, key⟩ := Option.bind_eq_some_iff.mp key
  obtain ⟨cs, k3, key⟩ := Option.map_eq_some_iff.mp key
  obtain ⟨k4, k5⟩ := Prod.mk.inj key
  obtain ⟨mi, mv, a1, a2, _⟩ := h3 1 ⟨"users/uid".toList, 0, 2⟩ m rfl k1
  rw [a1] at k2; cases k2
  obtain ⟨cs', b1, before, after, b2, _⟩ := a2 [] (by rw [Ty.part]; rfl)
  rw [b1] at k3; cases k3
  rw [k4, k5] at b2
  have : ("id".toList, Tag.string) ∈ [("uid".toList, Tag.string)] := by
    rw [b2]; simp
  revert this
  decide +kernel

/-- A struct whose nested field has a tag with an option. -/
def tagged : Ty := .struct (.cons ⟨"Name".toList, [], "name,omitempty".toList, true, false⟩ (.struct (.cons ⟨"First".toList, [], [], true, false⟩ (.scalar .string) .nil)) .nil)

/-- **C208 fails** for a nested struct whose `sql` tag has an option: it is stored in `name_first`, but a query names
`name,omitempty_first`. -/
theorem pointers_tag_options_fails :
    ((walk tagged [] (rootMeta "value".toList tagged)).bind fun m => mirrorAt m [0, 0]) = some [("name,omitempty_first".toList, .string)] ∧
    columnsOf tagged [] (rootMeta "value".toList tagged) = some [("name_first".toList, .string)] := by decide +kernel

/-- **C208 fails** for a map from `OpenTable`: unless another map of that table name and type was opened, there are no
pointers to hand to its query functions, and the call panics. -/
theorem pointers_open_table_fails (m : Opened) (kid vid : Nat) :
    pointers (openTable ⟨[], []⟩ m).1 (openTable ⟨[], []⟩ m).2 kid vid = none := rfl

end Verif.Sql
