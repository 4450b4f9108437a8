import Verif.Sql.DbMapLemmas
import Verif.Sql.DbProps

/-! C210: a map backed by a database answers as a map. -/
namespace Verif.Sql

theorem DOp.Proper.key_ty {kt vt : Ty} {a : DOp} (h : a.Proper kt vt) : HasTy kt a.key := by
  cases a with
  | insert k u v => exact h.1
  | lookup k => exact h
  | delete k c => exact h.1
  | mutate k c p => exact h.1

theorem hasColumn_of_ne {t : Ty} (hs : Supported t) (he : Exported t) {k : Val} (hk : HasTy t k) (hne : k ≠ zeroVal t) : HasColumn t := by
  intro path f hcol
  apply hne
  obtain ⟨xs, _, a2, a3⟩ := flatten_ty t k he hk
  obtain ⟨ys, _, b2, b3⟩ := flatten_ty t (zeroVal t) he (zero_hasTy t hs)
  obtain ⟨cols, c1, c2⟩ := a3 path f
  obtain ⟨cols', d1, d2⟩ := b3 path f
  rw [hcol] at c1 d1
  cases c1; cases d1
  have hx : xs = [] := List.map_eq_nil_iff.mp c2.symm
  have hy : ys = [] := List.map_eq_nil_iff.mp d2.symm
  subst hx; subst hy
  have := a2 []
  rw [b2] at this
  exact (Prod.mk.inj (Option.some.inj this)).1.symm

/-- **C210 (partial).** In any program that opens maps of queryable types (C208), for every map whose table has no two columns of the
same name, on every database that does what sodium documents and whose table starts
empty: every sequence of `Insert`, `Lookup`, `Delete` and `Mutate` with keys other than the zero value runs without a panic
and answers as the map that starts empty does. -/
theorem db_map_partial {σ : Type} (S : Scalars) (hS : S.Lawful) (tyOf : Nat → Ty) (hq : ∀ i, Queryable (tyOf i)) (os : List Open) (hk : SameKeyName os)
    (r : Registry) (ms : List Opened) (h : openAll tyOf ⟨[], []⟩ os = some (r, ms)) (i : Nat) (o : Open) (m : Opened) (ho : os[i]? = some o) (hm : ms[i]? = some m)
    (hn : ((m.index ++ m.value).map (·.1)).Nodup)
    (isZero : Val → Bool) (hz : ∀ k, HasTy (tyOf o.kid) k → (isZero k = true ↔ k = zeroVal (tyOf o.kid)))
    (db : Db σ) (rows : σ → List Cell → Option (List Cell)) (D : Documented S db m rows) (s : σ) (hs : ∀ j, rows s j = none) :
    ∃ mk mv, pointers r m o.kid o.vid = some (mk, mv) ∧
      ∀ ops, (∀ a ∈ ops, a.Proper (tyOf o.kid) (tyOf o.vid) ∧ a.key ≠ zeroVal (tyOf o.kid)) →
        ∃ as, runAll db m mk mv (tyOf o.kid) (tyOf o.vid) isZero s ops = some as ∧
          MapRun S (tyOf o.kid) (tyOf o.vid) (fun _ => none) ops as := by
  obtain ⟨r', ms', h1, _, h3⟩ := pointers_mean_partial tyOf hq os hk
  rw [h] at h1
  cases h1
  obtain ⟨mk, mv, a1, a2, a3⟩ := h3 i o m ho hm
  refine ⟨mk, mv, a1, ?_⟩
  intro ops hops
  cases ops with
  | nil => exact ⟨[], rfl, .nil _⟩
  | cons op ops =>
  have hc : HasColumn (tyOf o.kid) := by
    obtain ⟨b1, b2⟩ := hops op (by simp)
    exact hasColumn_of_ne (hq _).1 (hq _).2.1 b1.key_ty b2
  have R : Ready (tyOf o.kid) (tyOf o.vid) m mk mv := ⟨hq _, hq _, hc, a2, a3, hn⟩
  have hrel : Rel (tyOf o.kid) (tyOf o.vid) (rows s) (fun _ => none) := by
    constructor
    · intro k v h; cases h
    · intro k v i c h; cases h
    · intro i c h; rw [hs] at h; cases h
  apply run_ok hS R D isZero _ s _ hrel
  intro a ha
  obtain ⟨b1, b2⟩ := hops a ha
  refine ⟨b1, ?_⟩
  cases hz' : isZero a.key with
  | false => rfl
  | true => exact absurd ((hz _ b1.key_ty).mp hz') b2

/-! ### A database as documented -/

open Classical in
/-- The first thing with a property, if there is any. -/
noncomputable def pick {α : Type} (p : α → Prop) : Option α := if h : ∃ a, p a then some h.choose else none

theorem pick_spec {α : Type} (p : α → Prop) : (∃ a, pick p = some a ∧ p a) ∨ (pick p = none ∧ ∀ a, ¬ p a) := by
  unfold pick
  by_cases h : ∃ a, p a
  · rw [dif_pos h]; exact .inl ⟨_, rfl, h.choose_spec⟩
  · rw [dif_neg h]; exact .inr ⟨rfl, fun a ha => h ⟨a, ha⟩⟩

open Classical in
/-- A table as a function from keys to values, with one row changed. -/
noncomputable def tableSet (s : List Cell → Option (List Cell)) (i : List Cell) (o : Option (List Cell)) : List Cell → Option (List Cell) :=
  fun j => if j = i then o else s j

open Classical in
/-- A database of one table that does what sodium documents. -/
noncomputable def refDb (S : Scalars) : Db (List Cell → Option (List Cell)) where
  insert s _ i flag c := if s i = none ∨ flag = true then (tableSet s i (some c), 1, none) else (s, -1, none)
  search s m es := match pick fun r : List Cell × List Cell => s r.1 = some r.2 ∧ everyMeets S (RowOf m r.1 r.2) es with
    | some r => (s, [r.1 ++ r.2], none)
    | none => (s, [], none)
  delete s m es := match pick fun r : List Cell × List Cell => s r.1 = some r.2 ∧ everyMeets S (RowOf m r.1 r.2) es with
    | some r => (tableSet s r.1 none, 1, none)
    | none => (s, 0, none)
  update s m es mods := match pick fun r : List Cell × List Cell => s r.1 = some r.2 ∧ everyMeets S (RowOf m r.1 r.2) es with
    | some r => (tableSet s r.1 (some (setCells m.value r.2 mods)), 1, none)
    | none => (s, 0, none)

theorem refDb_documented (S : Scalars) (m : Opened) : Documented S (refDb S) m fun s => s := by
  constructor
  · intro s i flag c h
    refine ⟨_, _, by simp only [refDb]; rw [if_pos h], by decide, by simp [tableSet], ?_⟩
    intro j hj; simp [tableSet, hj]
  · intro s i c h
    refine ⟨s, -1, none, ?_, rfl, .inr ⟨rfl, rfl⟩⟩
    simp only [refDb]
    rw [if_neg]
    rintro (h' | h')
    · rw [h'] at h; cases h
    · cases h'
  · intro s es _
    simp only [refDb]
    rcases pick_spec fun r : List Cell × List Cell => s r.1 = some r.2 ∧ everyMeets S (RowOf m r.1 r.2) es with ⟨r, h1, h2, h3⟩ | ⟨h1, h2⟩
    · rw [h1]; exact .inl ⟨r.1, r.2, _, h2, h3, rfl, rfl⟩
    · rw [h1]; exact .inr ⟨fun i c h h' => h2 (i, c) ⟨h, h'⟩, _, rfl, rfl⟩
  · intro s es _
    simp only [refDb]
    rcases pick_spec fun r : List Cell × List Cell => s r.1 = some r.2 ∧ everyMeets S (RowOf m r.1 r.2) es with ⟨r, h1, h2, h3⟩ | ⟨h1, h2⟩
    · rw [h1]; exact .inl ⟨r.1, r.2, _, h2, h3, rfl, by simp [tableSet], fun j hj => by simp [tableSet, hj]⟩
    · rw [h1]; exact .inr ⟨fun i c h h' => h2 (i, c) ⟨h, h'⟩, _, rfl, rfl⟩
  · intro s es mods _
    simp only [refDb]
    rcases pick_spec fun r : List Cell × List Cell => s r.1 = some r.2 ∧ everyMeets S (RowOf m r.1 r.2) es with ⟨r, h1, h2, h3⟩ | ⟨h1, h2⟩
    · rw [h1]; exact .inl ⟨r.1, r.2, _, h2, h3, rfl, by simp [tableSet], fun j hj => by simp [tableSet, hj]⟩
    · rw [h1]; exact .inr ⟨fun i c h h' => h2 (i, c) ⟨h, h'⟩, _, rfl, rfl⟩

/-- Ann, aged 61. -/
def ann : Val := .many [.many [.scalar (.opaque [65, 110, 110]), .scalar (.opaque [76])], .many [.scalar (.opaque [65, 1]), .scalar (.opaque [])], .scalar (.int 61)]

/-- Insert Ann, let her grow a year older if she is over 60, look her up, delete her unless she is called `B`. -/
def exOps : List DOp :=
  [.insert (.scalar (.opaque [1])) false ann,
   .mutate (.scalar (.opaque [1])) (some [.cmp .moreThan (.val [2]) (.int 60)]) [([2], .scalar (.int 62))],
   .lookup (.scalar (.opaque [1])),
   .delete (.scalar (.opaque [1])) (some [.not (.equals (.val [0, 0]) (.scalar (.opaque [66])))])]

example : plain.Lawful ∧ (∀ i, Queryable (exTy i)) ∧ SameKeyName [⟨"customers".toList, 0, 1⟩] ∧
    (∃ r m, openAll exTy ⟨[], []⟩ [⟨"customers".toList, 0, 1⟩] = some (r, [m]) ∧ ((m.index ++ m.value).map (·.1)).Nodup) ∧
    (∀ a ∈ exOps, a.Proper (exTy 0) (exTy 1) ∧ a.key ≠ zeroVal (exTy 0)) := by
  refine ⟨fun _ _ _ => by simp [plain], ?_, ?_, ?_, ?_⟩
  · intro i
    unfold exTy Queryable
    split <;> simp [Supported, AllSupported, Exported, AllExported, NoOptions, NoOptionsFields, customer, customer.fld']
  · intro a ha b hb
    simp only [List.mem_singleton] at ha hb
    subst ha; subst hb; exact fun _ _ => rfl
  · refine ⟨_, _, rfl, ?_⟩; decide +kernel
  · intro a ha
    simp only [exOps, List.mem_cons, List.not_mem_nil, or_false] at ha
    rcases ha with rfl | rfl | rfl | rfl
    · simp [DOp.Proper, DOp.key, exTy, customer, ann, HasTy, HaveTys, Fits, zeroVal]
    · refine ⟨⟨by simp [exTy, HasTy, Fits], ?_, ?_⟩, by simp [DOp.key, exTy, zeroVal]⟩
      · intro cs h; cases h
        exact ⟨⟨⟨_, rfl⟩, trivial⟩, ⟨.int, rfl, by simp [Numeric], by simp [Fits]⟩, trivial⟩
      · intro a ha
        simp only [List.mem_singleton] at ha
        subst ha
        refine ⟨.scalar .int, rfl, by simp [HasTy, Fits], ?_⟩
        intro p f; simp [columnsOf]
    · simp [DOp.Proper, DOp.key, exTy, HasTy, Fits, zeroVal]
    · refine ⟨⟨by simp [exTy, HasTy, Fits], ?_⟩, by simp [DOp.key, exTy, zeroVal]⟩
      intro cs h; cases h
      refine ⟨⟨?_, trivial⟩, ?_, trivial⟩
      · rw [GCond.ValueOnly]; exact ⟨_, rfl⟩
      · rw [GCond.Proper, GCond.Proper]
        refine ⟨.scalar .string, rfl, by simp [HasTy, Fits], ?_⟩
        intro p f; simp [columnsOf]

/-- **C210**, the full claim: for every key, the zero value included. -/
def DbMapAlways : Prop :=
  ∀ (σ : Type) (S : Scalars), S.Lawful → ∀ (tyOf : Nat → Ty), (∀ i, Queryable (tyOf i)) → ∀ (o : Open) (r : Registry) (m : Opened),
    openAll tyOf ⟨[], []⟩ [o] = some (r, [m]) → ((m.index ++ m.value).map (·.1)).Nodup →
    ∀ (isZero : Val → Bool), (∀ k, HasTy (tyOf o.kid) k → (isZero k = true ↔ k = zeroVal (tyOf o.kid))) →
    ∀ (db : Db σ) (rows : σ → List Cell → Option (List Cell)), Documented S db m rows → ∀ s, (∀ j, rows s j = none) →
    ∀ mk mv, pointers r m o.kid o.vid = some (mk, mv) → ∀ ops, (∀ a ∈ ops, a.Proper (tyOf o.kid) (tyOf o.vid)) →
      ∃ as, runAll db m mk mv (tyOf o.kid) (tyOf o.vid) isZero s ops = some as ∧ MapRun S (tyOf o.kid) (tyOf o.vid) (fun _ => none) ops as

/-- **C210 fails** for the zero value as a key: a record inserted under it is refused, while a map (also the one kept in
memory, `insert` of C01) takes it. -/
theorem db_map_fails : ¬ DbMapAlways := by
  intro h
  have hq : ∀ i, Queryable (exTy i) := by
    intro i
    unfold exTy Queryable
    split <;> simp [Supported, AllSupported, Exported, AllExported, NoOptions, NoOptionsFields, customer, customer.fld']
  obtain ⟨r, ms, h1, h2, h3⟩ := pointers_mean_partial exTy hq [⟨"customers".toList, 0, 0⟩] (by
    intro a ha b hb
    simp only [List.mem_singleton] at ha hb
    subst ha; subst hb; exact fun _ _ => rfl)
  obtain ⟨m, rfl⟩ := List.length_eq_one_iff.mp h2
  obtain ⟨mk, mv, a1, _⟩ := h3 0 _ m rfl rfl
  have hn : ((m.index ++ m.value).map (·.1)).Nodup := by
    have : (openAll exTy ⟨[], []⟩ [⟨"customers".toList, 0, 0⟩]).map (fun r => r.2.map fun m => (m.index ++ m.value).map (·.1)) = some [["id".toList, "value".toList]] := by
      decide +kernel
    rw [h1] at this
    have := Option.some.inj this
    dsimp only [List.map] at this
    rw [(List.cons.inj this).1]
    decide +kernel
  classical
  obtain ⟨as, b1, b2⟩ := h _ plain (fun _ _ _ => by simp [plain]) exTy hq ⟨"customers".toList, 0, 0⟩ r m h1 hn (fun k => decide (k = zeroVal (exTy 0)))
    (fun k _ => by simp) (refDb plain) _ (refDb_documented plain m) (fun _ => none) (fun _ => rfl) mk mv a1
    [.insert (zeroVal (exTy 0)) false (zeroVal (exTy 0))] (by
      intro a ha
      simp only [List.mem_singleton] at ha
      subst ha
      simp [DOp.Proper, exTy, zeroVal, HasTy, Fits])
  have : as = [.invalidKey] := by
    rw [runAll, DOp.run, dbMapInsert, if_pos (by simp)] at b1
    dsimp only [runAll] at b1
    exact (Option.some.inj b1).symm
  subst this
  cases b2 with
  | cons h1 _ =>
    rw [MapStep] at h1
    rcases h1 with ⟨_, h, _⟩ | ⟨_, _, h, _⟩ <;> cases h

/-- A job that the database reports an error for is answered as failed (or as a duplicate, if that is the error), whatever
the database is; `es` is what the key is found by. -/
theorem failures_reported {σ : Type} (db : Db σ) (m : Opened) (mk mv : Mirror) (kt vt : Ty) (s : σ) (key value : Val) (flag : Bool)
    (i c : List Cell) (es : List SExpr) (mods : List (Col × Cell)) (hi : valuesOf kt key = some i) (hc : valuesOf vt value = some c)
    (he : keyQuery mk kt key none = some es) :
    (∀ s' n, db.insert s m i flag c = (s', n, some .other) → dbMapInsert db m kt vt s false key flag value = some (s', .failed)) ∧
    (∀ s' n, db.insert s m i flag c = (s', n, some .duplicate) → dbMapInsert db m kt vt s false key flag value = some (s', .duplicate)) ∧
    (∀ s' e, db.search s m es = (s', [], some e) → dbMapLookup db m mk kt vt s false key = some (s', .failed)) ∧
    (∀ s' n e, db.delete s m es = (s', n, some e) → dbMapDelete db m mk mv kt s false key none = some (s', .failed)) ∧
    (∀ s' n e, db.update s m es mods = (s', n, some e) →
      dbMapMutate db m mk mv kt s false key none (fun _ => some mods) = some (s', .failed)) := by
  refine ⟨?_, ?_, ?_, ?_, ?_⟩ <;> intro s' <;> intros
  · rename_i h; simp [dbMapInsert, hi, hc, h]
  · rename_i h; simp [dbMapInsert, hi, hc, h]
  · rename_i h; simp [dbMapLookup, he, h]
  · rename_i h; simp [dbMapDelete, he, h, counted]
  · rename_i h; simp [dbMapMutate, he, h, counted]

end Verif.Sql
