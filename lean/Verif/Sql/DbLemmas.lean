import Verif.Sql.DbSpec
import Verif.Sql.WalkProps
import Mathlib.Data.List.Nodup

/-! Lemmas about rows and the expressions built for conditions. -/
namespace Verif.Sql

/-! ### Equality of values is equality of their columns -/

/-- Two lists of cells are equal as Go compares them. -/
def SameCells (S : Scalars) : List Cell → List Cell → Prop
  | [], [] => True
  | a :: as, b :: bs => Cell.same S a b ∧ SameCells S as bs
  | _, _ => False

theorem sameCells_append {S : Scalars} : ∀ {a b c d : List Cell}, a.length = c.length → (SameCells S (a ++ b) (c ++ d) ↔ SameCells S a c ∧ SameCells S b d) := by
  intro a
  induction a with
  | nil => intro b c d h; cases c with
    | nil => simp [SameCells]
    | cons => simp at h
  | cons x a ih => intro b c d h; cases c with
    | nil => simp at h
    | cons y c =>
      simp only [List.cons_append, SameCells]
      rw [ih (by simpa using h)]
      exact and_assoc.symm

theorem columnType_eq (k : Kind) : columnType k = tagOf k := by cases k <;> rfl

theorem values_length {t : Ty} (he : Exported t) {v w : Val} (hv : HasTy t v) (hw : HasTy t w) {xs ys} (hx : valuesOf t v = some xs) (hy : valuesOf t w = some ys) :
    xs.length = ys.length := by
  obtain ⟨xs', a1, _, a3⟩ := flatten_ty t v he hv
  obtain ⟨ys', b1, _, b3⟩ := flatten_ty t w he hw
  rw [hx] at a1; cases a1
  rw [hy] at b1; cases b1
  obtain ⟨c, c1, c2⟩ := a3 [] ⟨[], [], [], true, false⟩
  obtain ⟨d, d1, d2⟩ := b3 [] ⟨[], [], [], true, false⟩
  rw [c1] at d1; cases d1
  have := congrArg List.length (c2.symm.trans d2)
  simpa using this

mutual
theorem goEq_values (S : Scalars) : (t : Ty) → (v w : Val) → Exported t → HasTy t v → HasTy t w → ∀ xs ys, valuesOf t v = some xs → valuesOf t w = some ys →
    (goEq S t v w ↔ SameCells S xs ys)
  | .scalar k, .scalar a, .scalar b, _, hv, hw, xs, ys, hx, hy => by
    rw [HasTy] at hv hw
    rw [valuesOf, scalar_value hv] at hx
    rw [valuesOf, scalar_value hw] at hy
    cases hx; cases hy
    simp [goEq, SameCells, Cell.same, columnType_eq]
  | .scalar k, .many _, w, _, hv, _, _, _, _, _ => by simp [HasTy] at hv
  | .scalar k, .scalar _, .many _, _, _, hw, _, _, _, _ => by simp [HasTy] at hw
  | .unsupported, v, _, _, hv, _, _, _, _, _ => by cases v <;> simp [HasTy] at hv
  | .struct fs, .scalar _, w, _, hv, _, _, _, _, _ => by simp [HasTy] at hv
  | .struct fs, .many _, .scalar _, _, _, hw, _, _, _, _ => by simp [HasTy] at hw
  | .struct fs, .many vs, .many ws, he, hv, hw, xs, ys, hx, hy => by
    rw [HasTy] at hv hw; rw [Exported] at he
    rw [valuesOf] at hx hy
    rw [goEq]
    exact goEqFields_values S fs vs ws he hv hw xs ys hx hy
  | .array n t, .scalar _, w, _, hv, _, _, _, _, _ => by simp [HasTy] at hv
  | .array n t, .many _, .scalar _, _, _, hw, _, _, _, _ => by simp [HasTy] at hw
  | .array n t, .many vs, .many ws, he, hv, hw, xs, ys, hx, hy => by
    rw [HasTy] at hv hw; rw [Exported] at he
    rw [valuesOf, if_pos hv.1] at hx
    rw [valuesOf, if_pos hw.1] at hy
    rw [goEq]
    have hl : vs.length = ws.length := hv.1.trans hw.1.symm
    have key : ∀ (vs ws : List Val) xs ys, vs.length = ws.length → (∀ v ∈ vs, HasTy t v) → (∀ v ∈ ws, HasTy t v) → valuesOfElems t vs = some xs → valuesOfElems t ws = some ys →
        ((∀ (i : Nat) (v w : Val), vs[i]? = some v → ws[i]? = some w → goEq S t v w) ↔ SameCells S xs ys) := by
      intro vs
      induction vs with
      | nil =>
        intro ws xs ys hl _ _ hx hy
        cases ws with
        | nil => rw [valuesOfElems] at hx hy; cases hx; cases hy; simp [SameCells]
        | cons => simp at hl
      | cons v vs ih =>
        intro ws xs ys hl h1 h2 hx hy
        cases ws with
        | nil => simp at hl
        | cons w ws =>
          have e1 := h1 v (by simp)
          have e2 := h2 w (by simp)
          obtain ⟨a, ha, _, _⟩ := flatten_ty t v he e1
          obtain ⟨b, hb, _, _⟩ := flatten_ty t w he e2
          rw [valuesOfElems, ha] at hx
          rw [valuesOfElems, hb] at hy
          cases hx' : valuesOfElems t vs with
          | none => rw [hx'] at hx; cases hx
          | some as =>
            cases hy' : valuesOfElems t ws with
            | none => rw [hy'] at hy; cases hy
            | some bs =>
              rw [hx'] at hx; cases hx
              rw [hy'] at hy; cases hy
              rw [sameCells_append (values_length he e1 e2 ha hb), ← goEq_values S t v w he e1 e2 a b ha hb,
                ← ih ws as bs (by simpa using hl) (fun v h => h1 v (List.mem_cons_of_mem _ h)) (fun v h => h2 v (List.mem_cons_of_mem _ h)) hx' hy']
              constructor
              · intro h
                exact ⟨h 0 v w rfl rfl, fun i v w hv hw => h (i + 1) v w hv hw⟩
              · intro h i
                cases i with
                | zero => intro v' w' hv' hw'; simp only [List.getElem?_cons_zero, Option.some.injEq] at hv' hw'; subst hv'; subst hw'; exact h.1
                | succ i => intro v' w' hv' hw'; exact h.2 i v' w' hv' hw'
    rw [key vs ws xs ys hl hv.2 hw.2 hx hy]
    exact ⟨fun h => h.2, fun h => ⟨hl, h⟩⟩
theorem goEqFields_values (S : Scalars) : (fs : Fields) → (vs ws : List Val) → AllExported fs → HaveTys fs vs → HaveTys fs ws → ∀ xs ys, valuesOfFields fs vs = some xs →
    valuesOfFields fs ws = some ys → (goEqFields S fs vs ws ↔ SameCells S xs ys)
  | .nil, [], [], _, _, _, xs, ys, hx, hy => by
    rw [valuesOfFields] at hx hy; cases hx; cases hy; simp [goEqFields, SameCells]
  | .nil, _ :: _, _, _, h, _, _, _, _, _ => by simp [HaveTys] at h
  | .nil, [], _ :: _, _, _, h, _, _, _, _ => by simp [HaveTys] at h
  | .cons f t rest, [], _, _, h, _, _, _, _, _ => by simp [HaveTys] at h
  | .cons f t rest, _ :: _, [], _, _, h, _, _, _, _ => by simp [HaveTys] at h
  | .cons f t rest, v :: vs, w :: ws, he, hv, hw, xs, ys, hx, hy => by
    rw [HaveTys] at hv hw; rw [AllExported] at he
    obtain ⟨a, ha, _, _⟩ := flatten_ty t v he.2.1 hv.1
    obtain ⟨b, hb, _, _⟩ := flatten_ty t w he.2.1 hw.1
    obtain ⟨as, has, _, _⟩ := flatten_fields rest vs he.2.2 hv.2
    obtain ⟨bs, hbs, _, _⟩ := flatten_fields rest ws he.2.2 hw.2
    rw [valuesOfFields, if_pos he.1, ha, has] at hx; cases hx
    rw [valuesOfFields, if_pos he.1, hb, hbs] at hy; cases hy
    rw [goEqFields, sameCells_append (values_length he.2.1 hv.1 hw.1 ha hb), goEq_values S t v w he.2.1 hv.1 hw.1 a b ha hb,
      goEqFields_values S rest vs ws he.2.2 hv.2 hw.2 as bs has hbs]
end

/-! ### Rows -/

theorem cell_zip : ∀ (names : List (List Char)) (xs : List Cell) (i : Nat) (n : List Char) (x : Cell), names.Nodup → names[i]? = some n → xs[i]? = some x →
    Row.cell (names.zip xs) n = some x := by
  intro names
  induction names with
  | nil => intro xs i n x _ h; simp at h
  | cons m names ih =>
    intro xs i n x hn hi hx
    cases xs with
    | nil => simp at hx
    | cons y xs =>
      rw [List.zip_cons_cons, Row.cell]
      cases i with
      | zero => simp only [List.getElem?_cons_zero, Option.some.injEq] at hi hx; rw [if_pos hi, hx]
      | succ i =>
        simp only [List.getElem?_cons_succ] at hi hx
        rw [List.nodup_cons] at hn
        rw [if_neg (by intro h; exact hn.1 (h ▸ List.mem_of_getElem? hi)), ih xs i n x hn.2 hi hx]

/-- The cells of a segment of the columns. -/
def CellsAt (r : Row) : List Col → List Cell → Prop
  | [], [] => True
  | c :: cs, x :: xs => r.cell c.1 = some x ∧ CellsAt r cs xs
  | _, _ => False

theorem cells_segment {cols before cs after : List Col} {vals l xs r : List Cell} (hn : (cols.map (·.1)).Nodup) (hc : cols = before ++ cs ++ after)
    (hv : vals = l ++ xs ++ r) (hl : l.length = before.length) (hx : xs.length = cs.length) : CellsAt (List.zip (cols.map (·.1)) vals) cs xs := by
  have key : ∀ (cs' : List Col) (xs' : List Cell) (pre : List Col) (pl : List Cell), pre.length = pl.length → cs = pre ++ cs' → xs = pl ++ xs' → cs'.length = xs'.length →
      CellsAt (List.zip (cols.map (·.1)) vals) cs' xs' := by
    intro cs'
    induction cs' with
    | nil => intro xs' pre pl _ _ _ h; cases xs' with
      | nil => trivial
      | cons => simp at h
    | cons c cs' ih =>
      intro xs' pre pl h1 h2 h3 h4
      cases xs' with
      | nil => simp at h4
      | cons x xs' =>
        refine ⟨?_, ih xs' (pre ++ [c]) (pl ++ [x]) (by simp [h1]) (by simp [h2]) (by simp [h3]) (by simpa using h4)⟩
        apply cell_zip _ _ (before.length + pre.length) _ _ hn
        · rw [hc, h2]
          simp only [List.map_append, List.map_cons, List.append_assoc]
          rw [List.getElem?_append_right (by simp), List.getElem?_append_right (by simp)]
          simp
        · rw [hv, h3]
          simp only [List.append_assoc]
          rw [List.getElem?_append_right (by omega), List.getElem?_append_right (by omega)]
          rw [show before.length + pre.length - l.length - pl.length = 0 by omega]
          rfl
  exact key cs xs [] [] rfl rfl rfl hx.symm

/-- The expressions `column = value`, one by one. -/
theorem group_meets {S : Scalars} {r : Row} : ∀ {cs : List Col} {xs ys : List Cell}, CellsAt r cs xs → ys.length = xs.length →
    ∃ es, pairUp SExpr.index cs ys = some es ∧ (everyMeets S r es ↔ SameCells S xs ys) := by
  intro cs
  induction cs with
  | nil => intro xs ys h hl; cases xs with
    | nil => cases ys with
      | nil => exact ⟨[], rfl, by simp [everyMeets, SameCells]⟩
      | cons => simp at hl
    | cons => simp [CellsAt] at h
  | cons c cs ih =>
    intro xs ys h hl
    cases xs with
    | nil => simp [CellsAt] at h
    | cons x xs =>
      cases ys with
      | nil => simp at hl
      | cons y ys =>
        obtain ⟨h1, h2⟩ := h
        obtain ⟨es, e1, e2⟩ := ih h2 (by simpa using hl)
        refine ⟨.index c y :: es, by rw [pairUp, e1]; rfl, ?_⟩
        rw [everyMeets, SExpr.Meets, SameCells, e2, h1]
        constructor
        · rintro ⟨⟨z, hz, hs⟩, h⟩; cases hz; exact ⟨hs, h⟩
        · rintro ⟨hs, h⟩; exact ⟨⟨x, rfl, hs⟩, h⟩

/-! ### Combinators -/

theorem avoid_meets (S : Scalars) (r : Row) (e : SExpr) : (dbAvoid e).Meets S r ↔ ¬ e.Meets S r := by
  cases e with
  | value b => cases b <;> simp [dbAvoid, SExpr.Meets]
  | _ => simp [dbAvoid, SExpr.Meets]

theorem casesLoop_meets (S : Scalars) (r : Row) (all : List SExpr) : ∀ (es pre : List SExpr), all = pre ++ es → (∀ e ∈ pre, ¬ e.Meets S r) →
    ((dbCasesLoop all es).Meets S r ↔ someMeets S r all) := by
  have skip : ∀ (pre es : List SExpr), (∀ e ∈ pre, ¬ e.Meets S r) → (someMeets S r (pre ++ es) ↔ someMeets S r es) := by
    intro pre es
    induction pre with
    | nil => intro _; rfl
    | cons e pre ih =>
      intro h
      rw [List.cons_append, someMeets, ih fun e he => h e (List.mem_cons_of_mem _ he)]
      exact ⟨fun h' => h'.resolve_left (h e (by simp)), .inr⟩
  intro es
  induction es with
  | nil => intro pre h1 h2; rw [dbCasesLoop, h1, skip pre [] h2]; simp [SExpr.Meets, someMeets]
  | cons e es ih =>
    intro pre h1 h2
    by_cases hv : ∃ b, e = .value b
    · obtain ⟨b, rfl⟩ := hv
      rw [dbCasesLoop]
      cases b with
      | true =>
        rw [if_pos rfl, h1, skip pre _ h2]
        simp [SExpr.Meets, someMeets]
      | false =>
        rw [if_neg (by simp)]
        exact ih (pre ++ [.value false]) (by simp [h1]) (by
          intro e he
          rw [List.mem_append, List.mem_singleton] at he
          rcases he with he | rfl
          · exact h2 e he
          · simp [SExpr.Meets])
    · have : dbCasesLoop all (e :: es) = .cases all := by
        cases e <;> first | rfl | (exfalso; exact hv ⟨_, rfl⟩)
      rw [this, SExpr.Meets]

theorem cases_meets (S : Scalars) (r : Row) {es : List SExpr} (h : es ≠ []) : (dbCases es).Meets S r ↔ someMeets S r es := by
  cases es with
  | nil => exact absurd rfl h
  | cons e es => exact casesLoop_meets S r (e :: es) (e :: es) [] rfl (by simp)

theorem mergeLoop_meets (S : Scalars) (r : Row) (all : List SExpr) : ∀ (es pre : List SExpr), all = pre ++ es → (∀ e ∈ pre, e.Meets S r) →
    ((dbMergeLoop all es).Meets S r ↔ everyMeets S r all) := by
  have skip : ∀ (pre es : List SExpr), (∀ e ∈ pre, e.Meets S r) → (everyMeets S r (pre ++ es) ↔ everyMeets S r es) := by
    intro pre es
    induction pre with
    | nil => intro _; rfl
    | cons e pre ih =>
      intro h
      rw [List.cons_append, everyMeets, ih fun e he => h e (List.mem_cons_of_mem _ he)]
      exact ⟨fun h' => h'.2, fun h' => ⟨h e (by simp), h'⟩⟩
  intro es
  induction es with
  | nil => intro pre h1 h2; rw [dbMergeLoop, h1, skip pre [] h2]; simp [SExpr.Meets, everyMeets]
  | cons e es ih =>
    intro pre h1 h2
    by_cases hv : ∃ b, e = .value b
    · obtain ⟨b, rfl⟩ := hv
      rw [dbMergeLoop]
      cases b with
      | false =>
        rw [if_pos (by rfl), h1, skip pre _ h2]
        simp [SExpr.Meets, everyMeets]
      | true =>
        rw [if_neg (by simp)]
        exact ih (pre ++ [.value true]) (by simp [h1]) (by
          intro e he
          rw [List.mem_append, List.mem_singleton] at he
          rcases he with he | rfl
          · exact h2 e he
          · simp [SExpr.Meets])
    · have : dbMergeLoop all (e :: es) = .group all := by
        cases e <;> first | rfl | (exfalso; exact hv ⟨_, rfl⟩)
      rw [this, SExpr.Meets]

theorem merge_meets (S : Scalars) (r : Row) (es : List SExpr) : (dbMerge es).Meets S r ↔ everyMeets S r es := by
  cases es with
  | nil => simp [dbMerge, SExpr.Meets, everyMeets]
  | cons e es => exact mergeLoop_meets S r (e :: es) (e :: es) [] rfl (by simp)

/-! ### The cells of a pointer -/

/-- What is known of the pointers of a map: each part has its columns, whose cells in a row hold the part's values. -/
def PtrOk (mk mv : Mirror) (kt vt : Ty) (k v : Val) (row : Row) : Prop :=
  ∀ (r : Ref) (s : Ty), r.type kt vt = some s → ∃ w cs xs, r.target kt vt k v = some (s, w) ∧ HasTy s w ∧ Exported s ∧
    r.columns mk mv = some cs ∧ valuesOf s w = some xs ∧ CellsAt row cs xs ∧ (HasColumn s → cs ≠ [])

theorem cellsAt_length {r : Row} : ∀ {cs : List Col} {xs : List Cell}, CellsAt r cs xs → xs.length = cs.length := by
  intro cs
  induction cs with
  | nil => intro xs h; cases xs <;> simp_all [CellsAt]
  | cons c cs ih => intro xs h; cases xs with
    | nil => simp [CellsAt] at h
    | cons x xs => simp [ih h.2]

theorem whereValue_fits {q : Kind} {x : Atom} (hq : Numeric q) (h : Fits q x) : whereValue q x = some (tagOf q, x) := by
  have := scalar_value h
  cases q <;> first | (simp [Numeric] at hq; done) | (rw [← this]; cases x <;> rfl) 

mutual
theorem build_ok {S : Scalars} {mk mv : Mirror} {kt vt : Ty} {k v : Val} {row : Row} (hp : PtrOk mk mv kt vt k v row) :
    (c : GCond) → c.Proper kt vt → ∃ e, c.build mk mv kt vt = some e ∧ (e.Meets S row ↔ c.Holds S kt vt k v)
  | .const b, _ => ⟨.value b, rfl, by simp [SExpr.Meets, GCond.Holds]⟩
  | .equals r x, h => by
    rw [GCond.Proper] at h
    obtain ⟨t, h1, h2, h3⟩ := h
    obtain ⟨w, cs, xs, a1, a2, a3, a4, a5, a6, a7⟩ := hp r t h1
    obtain ⟨ys, b1, _, _⟩ := flatten_ty t x a3 h2
    obtain ⟨es, c1, c2⟩ := group_meets (S := S) (ys := ys) a6 (values_length a3 h2 a2 b1 a5)
    refine ⟨.group es, ?_, ?_⟩
    · rw [GCond.build, h1, a4, Option.bind_some]
      cases cs with
      | nil => exact absurd rfl (a7 h3)
      | cons c cs => rw [dbIndex, b1]; dsimp only; rw [c1]; rfl
    · rw [SExpr.Meets, c2, GCond.Holds, ← goEq_values S t w x a3 a2 h2 xs ys a5 b1, a1]
      constructor
      · intro h; exact ⟨t, w, rfl, h⟩
      · rintro ⟨t', w', he, h⟩; cases he; exact h
  | .cmp op r x, h => by
    rw [GCond.Proper] at h
    obtain ⟨q, h1, h2, h3⟩ := h
    obtain ⟨w, cs, xs, a1, a2, a3, a4, a5, a6, a7⟩ := hp r (.scalar q) h1
    cases w with
    | many vs => simp [HasTy] at a2
    | scalar a =>
      rw [HasTy] at a2
      rw [valuesOf, scalar_value a2] at a5
      cases a5
      cases cs with
      | nil => simp [CellsAt] at a6
      | cons c cs =>
        refine ⟨.wher op c (tagOf q, x), ?_, ?_⟩
        · rw [GCond.build, h1, a4]
          simp only [Ty.kind, Option.bind_some, dbWhere, whereValue_fits h2 h3, Option.map_some]
        · rw [SExpr.Meets, GCond.Holds, a1, a6.1]
          constructor
          · rintro ⟨y, hy, _, h⟩; cases hy; exact ⟨q, a, rfl, by rw [columnType_eq]; exact h⟩
          · rintro ⟨q', a', he, h⟩; cases he; exact ⟨_, rfl, rfl, by rw [columnType_eq] at h; exact h⟩
  | .str op r s, h => by
    rw [GCond.Proper] at h
    obtain ⟨w, cs, xs, a1, a2, a3, a4, a5, a6, a7⟩ := hp r (.scalar .string) h
    cases w with
    | many vs => simp [HasTy] at a2
    | scalar a =>
      rw [HasTy] at a2
      cases a with
      | bool b => simp [Fits] at a2
      | int z => simp [Fits] at a2
      | «opaque» b =>
        rw [valuesOf, scalar_value a2] at a5
        cases a5
        cases cs with
        | nil => simp [CellsAt] at a6
        | cons c cs =>
          refine ⟨.mtch op c s, ?_, ?_⟩
          · rw [GCond.build, a4, dbMatch]
          · rw [SExpr.Meets, GCond.Holds, a1, a6.1]
            constructor
            · rintro ⟨g, y, hy, h⟩; cases hy; exact ⟨.string, b, rfl, h⟩
            · rintro ⟨q', b', he, h⟩; cases he; exact ⟨_, _, rfl, h⟩
  | .empty r, h => by
    rw [GCond.Proper] at h
    obtain ⟨q, h1⟩ := h
    obtain ⟨w, cs, xs, a1, a2, a3, a4, a5, a6, a7⟩ := hp r (.scalar q) h1
    cases w with
    | many vs => simp [HasTy] at a2
    | scalar a =>
      rw [HasTy] at a2
      rw [valuesOf, scalar_value a2] at a5
      cases a5
      cases cs with
      | nil => simp [CellsAt] at a6
      | cons c cs =>
        refine ⟨.empty c, ?_, ?_⟩
        · rw [GCond.build, a4, dbEmpty]
        · rw [SExpr.Meets, GCond.Holds, a1, a6.1]
          have hz : zeroVal (.scalar q) = .scalar (zeroOf (tagOf q)) := by cases q <;> rfl
          constructor
          · rintro ⟨y, hy, h⟩; cases hy; exact ⟨_, _, rfl, by rw [hz, goEq, columnType_eq]; exact h⟩
          · rintro ⟨t', w', he, h⟩; cases he; rw [hz, goEq, columnType_eq] at h; exact ⟨_, rfl, h⟩
  | .not c, h => by
    rw [GCond.Proper] at h
    obtain ⟨e, e1, e2⟩ := build_ok (S := S) hp c h
    exact ⟨dbAvoid e, by rw [GCond.build, e1]; rfl, by rw [avoid_meets, GCond.Holds, e2]⟩
  | .any cs, h => by
    rw [GCond.Proper] at h
    obtain ⟨es, e0, e1, _, e2⟩ := buildAll_ok (S := S) hp cs h.2
    refine ⟨dbCases es, by rw [GCond.build, e1]; rfl, ?_⟩
    rw [cases_meets S row (by intro he; rw [he] at e0; exact h.1 (List.length_eq_zero_iff.mp e0)), GCond.Holds, e2]
  | .all cs, h => by
    rw [GCond.Proper] at h
    obtain ⟨es, _, e1, e2, _⟩ := buildAll_ok (S := S) hp cs h
    exact ⟨dbMerge es, by rw [GCond.build, e1]; rfl, by rw [merge_meets, GCond.Holds, e2]⟩
theorem buildAll_ok {S : Scalars} {mk mv : Mirror} {kt vt : Ty} {k v : Val} {row : Row} (hp : PtrOk mk mv kt vt k v row) :
    (cs : List GCond) → allProper kt vt cs → ∃ es, cs.length = es.length ∧ buildAll mk mv kt vt cs = some es ∧
      (everyMeets S row es ↔ everyHolds S kt vt k v cs) ∧ (someMeets S row es ↔ someHolds S kt vt k v cs)
  | [], _ => ⟨[], rfl, rfl, by simp [everyMeets, everyHolds], by simp [someMeets, someHolds]⟩
  | c :: cs, h => by
    rw [allProper] at h
    obtain ⟨e, a1, a2⟩ := build_ok (S := S) hp c h.1
    obtain ⟨es, b0, b1, b2, b3⟩ := buildAll_ok (S := S) hp cs h.2
    exact ⟨e :: es, by simp [b0], by rw [buildAll, a1, b1], by rw [everyMeets, everyHolds, a2, b2], by rw [someMeets, someHolds, a2, b3]⟩
end

theorem hasTy_field {u : Ty} (fs : Fields) : ∀ (i : Nat) (vs : List Val), HaveTys fs vs → fs.ty i = some u → ∃ v, vs[i]? = some v ∧ HasTy u v := by
  induction fs using Fields.rec (motive_1 := fun _ => True) with
  | scalar => trivial
  | struct => trivial
  | array => trivial
  | unsupported => trivial
  | nil => intro i vs _ h; simp [Fields.ty] at h
  | cons f t rest _ ih =>
    intro i vs h hu
    cases vs with
    | nil => simp [HaveTys] at h
    | cons v vs =>
      rw [HaveTys] at h
      cases i with
      | zero => rw [Fields.ty] at hu; cases hu; exact ⟨v, rfl, h.1⟩
      | succ i => rw [Fields.ty] at hu; exact ih i vs h.2 hu

theorem hasTy_part {s : Ty} : ∀ (p : List Nat) (t : Ty) (v : Val), HasTy t v → t.part p = some s → ∃ w, v.part p = some w ∧ HasTy s w := by
  intro p
  induction p with
  | nil => intro t v h hp; rw [Ty.part] at hp; cases hp; exact ⟨v, by rw [Val.part], h⟩
  | cons i p ih =>
    intro t v h hp
    cases t with
    | scalar k => simp [Ty.part] at hp
    | unsupported => simp [Ty.part] at hp
    | array n t =>
      rw [Ty.part] at hp
      cases v with
      | scalar a => simp [HasTy] at h
      | many vs =>
        rw [HasTy] at h
        split at hp
        · rename_i hi
          rw [← h.1] at hi
          obtain ⟨w, w1, w2⟩ := ih t vs[i] (h.2 _ (List.getElem_mem hi)) hp
          exact ⟨w, by rw [Val.part, List.getElem?_eq_getElem hi]; exact w1, w2⟩
        · cases hp
    | struct fs =>
      rw [Ty.part] at hp
      cases v with
      | scalar a => simp [HasTy] at h
      | many vs =>
        rw [HasTy] at h
        obtain ⟨u, hu, hp⟩ := Option.bind_eq_some_iff.mp hp
        obtain ⟨x, x1, x2⟩ := hasTy_field fs i vs h hu
        obtain ⟨w, w1, w2⟩ := ih u x x2 hp
        exact ⟨w, by rw [Val.part, x1]; exact w1, w2⟩

/-- The pointers of a map whose parts are registered with the columns they are stored in, and whose column names differ. -/
theorem ptrOk_of_stores {mk mv : Mirror} {kt vt : Ty} {ci cv : List Col} (hek : Exported kt) (hev : Exported vt)
    (hk : ∀ p, (kt.part p).isSome → ∃ cs, mirrorAt mk p = some cs ∧ Stores kt ci p cs)
    (hv : ∀ p, (vt.part p).isSome → ∃ cs, mirrorAt mv p = some cs ∧ Stores vt cv p cs)
    (hn : ((ci ++ cv).map (·.1)).Nodup) {k v : Val} (tk : HasTy kt k) (tv : HasTy vt v) :
    ∃ row, rowOf ci cv kt vt k v = some row ∧ PtrOk mk mv kt vt k v row := by
  obtain ⟨xk, a1, _, _⟩ := flatten_ty kt k hek tk
  obtain ⟨xv, b1, _, _⟩ := flatten_ty vt v hev tv
  have hlen : ci.length = xk.length := by
    obtain ⟨cs, h1, before, after, h2, h3⟩ := hk [] (by rw [Ty.part]; rfl)
    obtain ⟨xs, l, r, h4, h5, h6, h7, h8, _⟩ := h3 k k kt tk (by rw [Ty.part]) (by rw [Val.part])
    rw [h4] at h5
    have h5 := congrArg List.length (Option.some.inj h5)
    have h8 := congrArg List.length h8
    rw [a1] at h4
    have h4 := congrArg List.length (Option.some.inj h4)
    rw [h2]
    simp only [List.length_append, List.length_map] at *
    omega
  refine ⟨_, by rw [rowOf, a1, b1], ?_⟩
  have hcol : ∀ {s : Ty} {w : Val} {xs : List Cell} {cs : List Col}, Exported s → HasTy s w → valuesOf s w = some xs → xs.length = cs.length → HasColumn s → cs ≠ [] := by
    intro s w xs cs he hw hx hl hc hcs
    obtain ⟨ys, y1, _, y3⟩ := flatten_ty s w he hw
    rw [hx] at y1; cases y1
    obtain ⟨c, c1, c2⟩ := y3 [] ⟨[], [], [], true, false⟩
    have := congrArg List.length c2
    simp only [List.length_map] at this
    rw [hcs] at hl
    simp only [List.length_nil] at hl
    rw [hl] at this
    rw [List.length_eq_zero_iff.mp this] at c1
    exact hc _ _ c1
  intro r s hr
  cases r with
  | key p =>
    rw [Ref.type] at hr
    obtain ⟨w, w1, w2⟩ := hasTy_part p kt k tk hr
    obtain ⟨cs, h1, before, after, h2, h3⟩ := hk p (by rw [hr]; rfl)
    obtain ⟨xs, l, r, h4, h5, h6, h7, h8, _⟩ := h3 k w s tk hr w1
    have h8' := congrArg List.length h8
    simp only [List.length_map] at h8'
    rw [a1] at h4
    refine ⟨w, cs, xs, by rw [Ref.target, hr, w1]; rfl, w2, exported_part p kt hek hr, h1, h5, ?_, hcol (exported_part p kt hek hr) w2 h5 h8'⟩
    refine cells_segment (before := before) (after := after ++ cv) (l := l) (r := r ++ xv) hn (by rw [h2]; simp) ?_ h6 h8'
    rw [Option.some.inj h4]; simp
  | val p =>
    rw [Ref.type] at hr
    obtain ⟨w, w1, w2⟩ := hasTy_part p vt v tv hr
    obtain ⟨cs, h1, before, after, h2, h3⟩ := hv p (by rw [hr]; rfl)
    obtain ⟨xs, l, r, h4, h5, h6, h7, h8, _⟩ := h3 v w s tv hr w1
    have h8' := congrArg List.length h8
    simp only [List.length_map] at h8'
    rw [b1] at h4
    refine ⟨w, cs, xs, by rw [Ref.target, hr, w1]; rfl, w2, exported_part p vt hev hr, h1, h5, ?_, hcol (exported_part p vt hev hr) w2 h5 h8'⟩
    refine cells_segment (before := ci ++ before) (after := after) (l := xk ++ l) (r := r) hn (by rw [h2]; simp) ?_ (by simp only [List.length_append]; omega) h8'
    rw [Option.some.inj h4]; simp

end Verif.Sql
