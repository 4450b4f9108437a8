import Verif.Sql.DbMapSpec
import Verif.Sql.DbLemmas

/-! Lemmas: a documented database behind a map simulates a mathematical map. -/
namespace Verif.Sql

/-! ### Setting cells -/

theorem setCell_at : ∀ (cols : List Col) (xs : List Cell) (j : Nat) (c : Col) (y : Cell), (cols.map (·.1)).Nodup → cols[j]? = some c → j < xs.length →
    setCell cols xs (c, y) = xs.set j y := by
  intro cols
  induction cols with
  | nil => intro xs j c y _ h; simp at h
  | cons d cols ih =>
    intro xs j c y hn hj hx
    cases xs with
    | nil => simp at hx
    | cons x xs =>
      rw [List.map_cons, List.nodup_cons] at hn
      rw [setCell]
      cases j with
      | zero => simp only [List.getElem?_cons_zero, Option.some.injEq] at hj; subst hj; rw [if_pos rfl]; rfl
      | succ j =>
        simp only [List.getElem?_cons_succ] at hj
        rw [if_neg (by intro h; exact hn.1 (h ▸ List.mem_map_of_mem (List.mem_of_getElem? hj))), ih xs j c y hn.2 hj (by simpa using hx)]
        rfl

theorem setCells_segment {cols before after : List Col} : ∀ {cs : List Col} {done : List Col} {l dy xs ys r : List Cell}, (cols.map (·.1)).Nodup →
    cols = before ++ (done ++ cs) ++ after → l.length = before.length → dy.length = done.length → xs.length = cs.length → ys.length = cs.length →
    ∃ mods, pairUp (fun c x => (c, x)) cs ys = some mods ∧ setCells cols (l ++ (dy ++ xs) ++ r) mods = l ++ (dy ++ ys) ++ r := by
  intro cs
  induction cs with
  | nil =>
    intro done l dy xs ys r _ _ _ _ hx hy
    rw [List.length_eq_zero_iff.mp hx, List.length_eq_zero_iff.mp hy]
    exact ⟨[], rfl, rfl⟩
  | cons c cs ih =>
    intro done l dy xs ys r hn hc hl hd hx hy
    cases xs with
    | nil => simp at hx
    | cons x xs =>
      cases ys with
      | nil => simp at hy
      | cons y ys =>
        obtain ⟨mods, h1, h2⟩ := ih (done := done ++ [c]) (l := l) (dy := dy ++ [y]) (xs := xs) (ys := ys) (r := r) hn (by rw [hc]; simp) hl (by simp [hd]) (by simpa using hx) (by simpa using hy)
        refine ⟨(c, y) :: mods, by rw [pairUp, h1]; rfl, ?_⟩
        rw [setCells, List.foldl_cons, setCell_at cols _ (before.length + done.length) c y hn]
        · have : (l ++ (dy ++ x :: xs) ++ r).set (before.length + done.length) y = l ++ (dy ++ [y] ++ xs) ++ r := by
            rw [← hl, ← hd]
            simp only [List.append_assoc]
            rw [List.set_append_right _ _ (by omega), List.set_append_right _ _ (by omega)]
            rw [show l.length + dy.length - l.length - dy.length = 0 by omega]
            rfl
          rw [this]
          rw [setCells] at h2
          rw [h2]; simp
        · rw [hc]
          simp only [List.append_assoc]
          rw [List.getElem?_append_right (by omega), List.getElem?_append_right (by omega),
            show before.length + done.length - before.length - done.length = 0 by omega]
          rfl
        · simp only [List.length_append, List.length_cons]; omega

/-! ### Assignments -/

theorem haveTys_modify {u : Ty} {g : Val → Val} (fs : Fields) : ∀ (i : Nat) (vs : List Val), HaveTys fs vs → fs.ty i = some u → (∀ v, HasTy u v → HasTy u (g v)) → HaveTys fs (vs.modify i g) := by
  induction fs using Fields.rec (motive_1 := fun _ => True) with
  | scalar => trivial
  | struct => trivial
  | array => trivial
  | unsupported => trivial
  | nil => intro i vs _ h; simp [Fields.ty] at h
  | cons f t rest _ ih =>
    intro i vs h hu hg
    cases vs with
    | nil => simp [HaveTys] at h
    | cons v vs =>
      rw [HaveTys] at h
      cases i with
      | zero => rw [Fields.ty] at hu; cases hu; rw [List.modify_zero_cons, HaveTys]; exact ⟨hg v h.1, h.2⟩
      | succ i => rw [Fields.ty] at hu; rw [List.modify_succ_cons, HaveTys]; exact ⟨h.1, ih i vs h.2 hu hg⟩

theorem hasTy_put {s : Ty} {x : Val} (hx : HasTy s x) : ∀ (p : List Nat) (t : Ty) (v : Val), HasTy t v → t.part p = some s → HasTy t (v.put p x) := by
  intro p
  induction p with
  | nil => intro t v _ hp; rw [Ty.part] at hp; cases hp; rw [Val.put]; exact hx
  | cons i p ih =>
    intro t v h hp
    cases t with
    | scalar k => simp [Ty.part] at hp
    | unsupported => simp [Ty.part] at hp
    | array n t =>
      rw [Ty.part] at hp
      cases v with
      | scalar a => simp [HasTy] at h
      | many vs =>
        rw [HasTy] at h
        split at hp
        · rw [Val.put, HasTy]
          refine ⟨by rw [List.length_modify]; exact h.1, ?_⟩
          intro v hv
          obtain ⟨j, hj, rfl⟩ := List.mem_iff_getElem.mp hv
          rw [List.getElem_modify]
          split
          · exact ih t _ (h.2 _ (List.getElem_mem _)) hp
          · exact h.2 _ (List.getElem_mem _)
        · cases hp
    | struct fs =>
      rw [Ty.part] at hp
      cases v with
      | scalar a => simp [HasTy] at h
      | many vs =>
        rw [HasTy] at h
        obtain ⟨u, hu, hp⟩ := Option.bind_eq_some_iff.mp hp
        rw [Val.put, HasTy]
        exact haveTys_modify fs i vs h hu fun v hv => ih u v hv hp

theorem hasColumn_values {s : Ty} {w : Val} {xs : List Cell} {cs : List Col} (he : Exported s) (hw : HasTy s w) (hx : valuesOf s w = some xs) (hl : xs.length = cs.length)
    (hc : HasColumn s) : cs ≠ [] := by
  intro hcs
  obtain ⟨ys, y1, _, y3⟩ := flatten_ty s w he hw
  rw [hx] at y1; cases y1
  obtain ⟨c, c1, c2⟩ := y3 [] ⟨[], [], [], true, false⟩
  have := congrArg List.length c2
  simp only [List.length_map] at this
  rw [hcs] at hl
  simp only [List.length_nil] at hl
  rw [hl] at this
  rw [List.length_eq_zero_iff.mp this] at c1
  exact hc _ _ c1

mutual
theorem zero_hasTy : (t : Ty) → Supported t → HasTy t (zeroVal t)
  | .scalar k, _ => by cases k <;> simp [zeroVal, HasTy, Fits]
  | .struct fs, h => by rw [Supported] at h; rw [zeroVal, HasTy]; exact zero_haveTys fs h
  | .array n t, h => by
    rw [Supported] at h
    rw [zeroVal, HasTy]
    refine ⟨by simp, ?_⟩
    intro v hv
    rw [(List.mem_replicate.mp hv).2]
    exact zero_hasTy t h
  | .unsupported, h => by simp [Supported] at h
theorem zero_haveTys : (fs : Fields) → AllSupported fs → HaveTys fs (zeroVals fs)
  | .nil, _ => by simp [zeroVals, HaveTys]
  | .cons f t rest, h => by
    rw [AllSupported] at h
    rw [zeroVals, HaveTys]
    exact ⟨zero_hasTy t h.1, zero_haveTys rest h.2⟩
end

theorem patch_ok {mv : Mirror} {vt : Ty} {cv : List Col} (hsv : Supported vt) (hev : Exported vt) (hn : (cv.map (·.1)).Nodup)
    (hv : ∀ p, (vt.part p).isSome → ∃ cs, mirrorAt mv p = some cs ∧ Stores vt cv p cs) : ∀ (patch : List (List Nat × Val)),
    (∀ a ∈ patch, ∃ t, vt.part a.1 = some t ∧ HasTy t a.2 ∧ HasColumn t) → ∃ mods, patchMods mv vt patch = some mods ∧
      ∀ v c, HasTy vt v → valuesOf vt v = some c → HasTy vt (v.puts patch) ∧ valuesOf vt (v.puts patch) = some (setCells cv c mods) := by
  intro patch
  induction patch with
  | nil => intro _; exact ⟨[], rfl, fun v c h1 h2 => ⟨h1, h2⟩⟩
  | cons a as ih =>
    intro h
    obtain ⟨mods, m1, m2⟩ := ih fun a ha => h a (List.mem_cons_of_mem _ ha)
    obtain ⟨t, t1, t2, t3⟩ := h a (by simp)
    obtain ⟨cs, c1, before, after, c2, c3⟩ := hv a.1 (by rw [t1]; rfl)
    have het := exported_part a.1 vt hev t1
    obtain ⟨ys, y1, _, _⟩ := flatten_ty t a.2 het t2
    have hlen : ∀ v, HasTy vt v → ∃ w xs l r, valuesOf vt v = some (l ++ xs ++ r) ∧ l.length = before.length ∧ xs.length = cs.length ∧ ys.length = cs.length ∧
        valuesOf vt (v.put a.1 a.2) = some (l ++ ys ++ r) ∧ HasTy t w ∧ valuesOf t w = some xs := by
      intro v hv'
      obtain ⟨w, w1, w2⟩ := hasTy_part a.1 vt v hv' t1
      obtain ⟨xs, l, r, h4, h5, h6, h7, h8, h9⟩ := c3 v w t hv' t1 w1
      have h8' := congrArg List.length h8
      simp only [List.length_map] at h8'
      exact ⟨w, xs, l, r, h4, h6, h8', by rw [values_length het t2 w2 y1 h5, h8'], h9 a.2 ys t2 y1, w2, h5⟩
    obtain ⟨w0, xs0, l0, r0, e1, e2, e3, e4, e5, e6, e7⟩ := hlen (zeroVal vt) (zero_hasTy vt hsv)
    have hcs := hasColumn_values het e6 e7 e3 t3
    obtain ⟨first, g1, _⟩ := setCells_segment (cs := cs) (done := []) (l := l0) (dy := []) (xs := xs0) (ys := ys) (r := r0) hn (by rw [c2]; rfl) e2 rfl e3 e4
    have hset : ∀ v c, HasTy vt v → valuesOf vt v = some c → valuesOf vt (v.put a.1 a.2) = some (setCells cv c first) := by
      intro v c hv' hc
      obtain ⟨w, xs, l, r, k1, k2, k3, k4, k5, _⟩ := hlen v hv'
      obtain ⟨mods', g1', g2'⟩ := setCells_segment (cs := cs) (done := []) (l := l) (dy := []) (xs := xs) (ys := ys) (r := r) hn (by rw [c2]; rfl) k2 rfl k3 k4
      rw [g1] at g1'
      cases g1'
      rw [hc] at k1
      rw [Option.some.inj k1, k5]
      simp only [List.nil_append] at g2'
      rw [g2']
    refine ⟨first ++ mods, ?_, ?_⟩
    · rw [patchMods, t1, c1, m1]
      cases cs with
      | nil => exact absurd rfl hcs
      | cons c0 cs0 => dsimp only; rw [dbSet, y1]; dsimp only; rw [g1]; rfl
    · intro v c hv' hc
      obtain ⟨q1, q2⟩ := m2 (v.put a.1 a.2) _ (hasTy_put t2 a.1 vt v hv' t1) (hset v c hv' hc)
      refine ⟨q1, ?_⟩
      rw [setCells, List.foldl_append]
      exact q2

/-! ### Keys -/

theorem sameCells_iff {S : Scalars} (hS : S.Lawful) : ∀ (xs ys : List Cell), SameCells S xs ys ↔ xs = ys := by
  intro xs
  induction xs with
  | nil => intro ys; cases ys <;> simp [SameCells]
  | cons x xs ih => intro ys; cases ys with
    | nil => simp [SameCells]
    | cons y ys =>
      rw [SameCells, ih ys, Cell.same, hS]
      constructor
      · rintro ⟨⟨h1, h2⟩, h3⟩; rw [h3]; congr 1; exact Prod.ext h1 h2
      · intro h; cases h; exact ⟨⟨rfl, rfl⟩, rfl⟩

theorem values_inj {t : Ty} (he : Exported t) {v w : Val} (hv : HasTy t v) (hw : HasTy t w) {xs} (h1 : valuesOf t v = some xs) (h2 : valuesOf t w = some xs) : v = w := by
  obtain ⟨a, a1, a2, _⟩ := flatten_ty t v he hv
  obtain ⟨b, b1, b2, _⟩ := flatten_ty t w he hw
  rw [h1] at a1; cases a1
  rw [h2] at b1; cases b1
  have := (a2 []).symm.trans (b2 [])
  cases this
  rfl

theorem everyMeets_append {S : Scalars} {r : Row} : ∀ (a b : List SExpr), everyMeets S r (a ++ b) ↔ everyMeets S r a ∧ everyMeets S r b := by
  intro a b
  induction a with
  | nil => simp [everyMeets]
  | cons e a ih => rw [List.cons_append, everyMeets, everyMeets, ih]; exact and_assoc.symm

mutual
theorem build_valueOnly {mk mk' mv : Mirror} {kt vt : Ty} : (c : GCond) → c.ValueOnly → c.build mk mv kt vt = c.build mk' mv kt vt
  | .const _, _ => rfl
  | .equals r x, h => by rw [GCond.ValueOnly] at h; obtain ⟨p, rfl⟩ := h; rfl
  | .cmp op r x, h => by rw [GCond.ValueOnly] at h; obtain ⟨p, rfl⟩ := h; rfl
  | .str op r x, h => by rw [GCond.ValueOnly] at h; obtain ⟨p, rfl⟩ := h; rfl
  | .empty r, h => by rw [GCond.ValueOnly] at h; obtain ⟨p, rfl⟩ := h; rfl
  | .not c, h => by rw [GCond.ValueOnly] at h; rw [GCond.build, GCond.build, build_valueOnly c h]
  | .any cs, h => by rw [GCond.ValueOnly] at h; rw [GCond.build, GCond.build, buildAll_valueOnly cs h]
  | .all cs, h => by rw [GCond.ValueOnly] at h; rw [GCond.build, GCond.build, buildAll_valueOnly cs h]
theorem buildAll_valueOnly {mk mk' mv : Mirror} {kt vt : Ty} : (cs : List GCond) → allValueOnly cs → buildAll mk mv kt vt cs = buildAll mk' mv kt vt cs
  | [], _ => rfl
  | c :: cs, h => by rw [allValueOnly] at h; rw [buildAll, buildAll, build_valueOnly c h.1, buildAll_valueOnly cs h.2]
end

/-- What is known of a map: its table and its pointers. -/
structure Ready (kt vt : Ty) (m : Opened) (mk mv : Mirror) : Prop where
  key : Queryable kt
  val : Queryable vt
  stored : HasColumn kt
  keys : ∀ p, (kt.part p).isSome → ∃ cs, mirrorAt mk p = some cs ∧ Stores kt m.index p cs
  vals : ∀ p, (vt.part p).isSome → ∃ cs, mirrorAt mv p = some cs ∧ Stores vt m.value p cs
  names : ((m.index ++ m.value).map (·.1)).Nodup

/-- The query for a key and a check. -/
theorem keyQuery_ok {S : Scalars} (hS : S.Lawful) {kt vt : Ty} {m : Opened} {mk mv : Mirror} (R : Ready kt vt m mk mv) (k : Val) (hk : HasTy kt k)
    (check : Option (List GCond)) (hc : ∀ cs, check = some cs → allValueOnly cs ∧ allProper kt vt cs) :
    ∃ ces es, (check = none ∧ ces = none ∨ ∃ cs l, check = some cs ∧ ces = some l ∧ buildAll mk mv kt vt cs = some l) ∧
      keyQuery mk kt k ces = some es ∧ SExpr.range 0 1 ∈ es ∧
      ∀ k' v' i c, HasTy kt k' → HasTy vt v' → valuesOf kt k' = some i → valuesOf vt v' = some c →
        (everyMeets S (RowOf m i c) es ↔ k' = k ∧ Checked S kt vt k v' check) := by
  have hptr : ∀ k' v' i c, HasTy kt k' → HasTy vt v' → valuesOf kt k' = some i → valuesOf vt v' = some c → PtrOk mk mv kt vt k' v' (RowOf m i c) := by
    intro k' v' i c tk tv h1 h2
    obtain ⟨row, r1, r2⟩ := ptrOk_of_stores R.key.2.1 R.val.2.1 R.keys R.vals R.names tk tv
    rw [rowOf, h1, h2] at r1
    cases r1
    exact r2
  have hprop : GCond.Proper kt vt (.equals (.key []) k) := by
    rw [GCond.Proper]; exact ⟨kt, by rw [Ref.type, Ty.part], hk, R.stored⟩
  -- the expression for the key
  obtain ⟨e, e1⟩ : ∃ e, dbIndex (mirrorAt mk []) false kt k = some e := by
    obtain ⟨xk, a1, _, _⟩ := flatten_ty kt k R.key.2.1 hk
    obtain ⟨xv, b1, _, _⟩ := flatten_ty vt (zeroVal vt) R.val.2.1 (zero_hasTy vt R.val.1)
    obtain ⟨e, h1, _⟩ := build_ok (S := S) (hptr k (zeroVal vt) xk xv hk (zero_hasTy vt R.val.1) a1 b1) _ hprop
    rw [GCond.build, Ref.type, Ty.part] at h1
    exact ⟨e, h1⟩
  have hkey : ∀ k' v' i c, HasTy kt k' → HasTy vt v' → valuesOf kt k' = some i → valuesOf vt v' = some c → (e.Meets S (RowOf m i c) ↔ k' = k) := by
    intro k' v' i c tk tv h1 h2
    obtain ⟨e', f1, f2⟩ := build_ok (S := S) (hptr k' v' i c tk tv h1 h2) _ hprop
    rw [GCond.build, Ref.type, Ty.part, Option.bind_some, Ref.columns, e1] at f1
    cases f1
    rw [f2, GCond.Holds]
    obtain ⟨xk, a1, _, _⟩ := flatten_ty kt k R.key.2.1 hk
    have : ∀ t w, Ref.target kt vt k' v' (.key []) = some (t, w) ↔ t = kt ∧ w = k' := by
      intro t w
      rw [Ref.target, Ty.part, Val.part]
      simp only [Option.bind_some, Option.map_some, Option.some.injEq, Prod.mk.injEq]
      exact ⟨fun h => ⟨h.1.symm, h.2.symm⟩, fun h => ⟨h.1.symm, h.2.symm⟩⟩
    constructor
    · rintro ⟨t, w, g1, g2⟩
      obtain ⟨rfl, rfl⟩ := (this t w).mp g1
      rw [goEq_values S _ _ _ R.key.2.1 tk hk i xk h1 a1, sameCells_iff hS] at g2
      subst g2
      exact values_inj R.key.2.1 tk hk h1 a1
    · intro h
      subst h
      refine ⟨kt, k', (this _ _).mpr ⟨rfl, rfl⟩, ?_⟩
      rw [goEq_values S _ _ _ R.key.2.1 tk tk i i h1 h1, sameCells_iff hS]
  have hrange : ∀ r : Row, everyMeets S r [e, .range 0 1] ↔ e.Meets S r := by
    intro r; simp [everyMeets, SExpr.Meets]
  cases check with
  | none =>
    refine ⟨none, [e, .range 0 1], .inl ⟨rfl, rfl⟩, by rw [keyQuery, e1]; rfl, by simp, ?_⟩
    intro k' v' i c tk tv h1 h2
    rw [hrange, hkey k' v' i c tk tv h1 h2, Checked]
    simp
  | some cs =>
    obtain ⟨c1, c2⟩ := hc cs rfl
    obtain ⟨l, l1⟩ : ∃ l, buildAll mk mv kt vt cs = some l := by
      obtain ⟨xk, a1, _, _⟩ := flatten_ty kt k R.key.2.1 hk
      obtain ⟨xv, b1, _, _⟩ := flatten_ty vt (zeroVal vt) R.val.2.1 (zero_hasTy vt R.val.1)
      obtain ⟨l, _, h1, _⟩ := buildAll_ok (S := S) (hptr k (zeroVal vt) xk xv hk (zero_hasTy vt R.val.1) a1 b1) cs c2
      exact ⟨l, h1⟩
    refine ⟨some l, [e, .range 0 1] ++ l, .inr ⟨cs, l, rfl, rfl, l1⟩, by rw [keyQuery, e1]; rfl, by simp, ?_⟩
    intro k' v' i c tk tv h1 h2
    rw [everyMeets_append, hrange, hkey k' v' i c tk tv h1 h2, Checked]
    obtain ⟨l', _, g1, g2, _⟩ := buildAll_ok (S := S) (hptr k' v' i c tk tv h1 h2) cs c2
    rw [l1] at g1; cases g1
    rw [g2]
    constructor
    · rintro ⟨rfl, h⟩; exact ⟨rfl, h⟩
    · rintro ⟨rfl, h⟩; exact ⟨rfl, h⟩

/-- The rows of a database hold the records of a map. -/
structure Rel (kt vt : Ty) (rows : List Cell → Option (List Cell)) (f : Val → Option Val) : Prop where
  typed : ∀ k v, f k = some v → HasTy kt k ∧ HasTy vt v
  there : ∀ k v i c, f k = some v → valuesOf kt k = some i → valuesOf vt v = some c → rows i = some c
  only : ∀ i c, rows i = some c → ∃ k v, valuesOf kt k = some i ∧ valuesOf vt v = some c ∧ f k = some v

open Classical in
/-- A map with one entry changed. -/
noncomputable def changeAt (f : Val → Option Val) (k : Val) (o : Option Val) : Val → Option Val := fun k' => if k' = k then o else f k'

theorem changeAt_spec (f : Val → Option Val) (k : Val) (o : Option Val) : ChangedAt f (changeAt f k o) k o := by
  constructor
  · simp [changeAt]
  · intro k' h; simp [changeAt, h]

theorem Rel.change {kt vt : Ty} (hk : Exported kt) {rows rows' : List Cell → Option (List Cell)} {f : Val → Option Val} (h : Rel kt vt rows f) {k : Val} {i : List Cell} (tk : HasTy kt k)
    (hi : valuesOf kt k = some i) (o : Option Val) (co : Option (List Cell)) (ho : (o = none ∧ co = none) ∨ ∃ v c, o = some v ∧ co = some c ∧ HasTy vt v ∧ valuesOf vt v = some c)
    (h1 : rows' i = co) (h2 : ∀ j, j ≠ i → rows' j = rows j) : Rel kt vt rows' (changeAt f k o) := by
  have hne : ∀ k' i', HasTy kt k' → valuesOf kt k' = some i' → k' ≠ k → i' ≠ i := by
    intro k' i' tk' hi' hne he
    subst he
    exact hne (values_inj hk tk' tk hi' hi)
  constructor
  · intro k' v' hf
    by_cases he : k' = k
    · subst he
      rw [(changeAt_spec f k' o).1] at hf
      rcases ho with ⟨rfl, _⟩ | ⟨v, c, rfl, _, tv, _⟩
      · cases hf
      · cases hf; exact ⟨tk, tv⟩
    · rw [(changeAt_spec f k o).2 k' he] at hf; exact h.typed k' v' hf
  · intro k' v' i' c' hf hi' hc'
    by_cases he : k' = k
    · subst he
      rw [hi] at hi'; cases hi'
      rw [(changeAt_spec f k' o).1] at hf
      rcases ho with ⟨rfl, _⟩ | ⟨v, c, rfl, hco, tv, hv⟩
      · cases hf
      · cases hf
        rw [hv] at hc'; cases hc'
        rw [h1, hco]
    · rw [(changeAt_spec f k o).2 k' he] at hf
      rw [h2 i' (hne k' i' (h.typed k' v' hf).1 hi' he)]
      exact h.there k' v' i' c' hf hi' hc'
  · intro i' c' hr
    by_cases he : i' = i
    · subst he
      rw [h1] at hr
      rcases ho with ⟨_, hco⟩ | ⟨v, c, ho, hco, tv, hv⟩
      · rw [hco] at hr; cases hr
      · rw [hco] at hr; cases hr
        exact ⟨k, v, hi, hv, by rw [(changeAt_spec f k o).1, ho]⟩
    · rw [h2 i' he] at hr
      obtain ⟨k', v', a1, a2, a3⟩ := h.only i' c' hr
      refine ⟨k', v', a1, a2, ?_⟩
      rw [(changeAt_spec f k o).2 k' (by intro hk'; subst hk'; rw [hi] at a1; cases a1; exact he rfl)]
      exact a3

theorem counted_one {σ : Type} (s : σ) : counted (s, 1, none) = (s, .did true) := rfl
theorem counted_zero {σ : Type} (s : σ) : counted (s, 0, none) = (s, .did false) := rfl

theorem step_ok {σ : Type} {S : Scalars} (hS : S.Lawful) {kt vt : Ty} {m : Opened} {mk mv : Mirror} (R : Ready kt vt m mk mv) {db : Db σ}
    {rows : σ → List Cell → Option (List Cell)} (D : Documented S db m rows) (isZero : Val → Bool) {s : σ} {f : Val → Option Val} (h : Rel kt vt (rows s) f)
    (o : DOp) (ho : o.Proper kt vt) (hz : isZero o.key = false) :
    ∃ s' a f', o.run db m mk mv kt vt isZero s = some (s', a) ∧ MapStep S kt vt f f' a o ∧ Rel kt vt (rows s') f' := by
  -- the record a query finds
  have hhit : ∀ (k : Val) (check : Option (List GCond)) (es : List SExpr), HasTy kt k →
      (∀ k' v' i c, HasTy kt k' → HasTy vt v' → valuesOf kt k' = some i → valuesOf vt v' = some c → (everyMeets S (RowOf m i c) es ↔ k' = k ∧ Checked S kt vt k v' check)) →
      (∀ i c, rows s i = some c → everyMeets S (RowOf m i c) es → ∃ v, f k = some v ∧ HasTy vt v ∧ valuesOf kt k = some i ∧ valuesOf vt v = some c ∧ Checked S kt vt k v check) ∧
      ((∀ i c, rows s i = some c → ¬ everyMeets S (RowOf m i c) es) → ∀ v, f k = some v → ¬ Checked S kt vt k v check) := by
    intro k check es hk hes
    constructor
    · intro i c hr hm
      obtain ⟨k', v', a1, a2, a3⟩ := h.only i c hr
      obtain ⟨t1, t2⟩ := h.typed k' v' a3
      obtain ⟨b1, b2⟩ := (hes k' v' i c t1 t2 a1 a2).mp hm
      subst b1
      exact ⟨v', a3, t2, a1, a2, b2⟩
    · intro hno v hf hc
      obtain ⟨t1, t2⟩ := h.typed k v hf
      obtain ⟨i, i1, _, _⟩ := flatten_ty kt k R.key.2.1 t1
      obtain ⟨c, c1, _, _⟩ := flatten_ty vt v R.val.2.1 t2
      exact hno i c (h.there k v i c hf i1 c1) ((hes k v i c t1 t2 i1 c1).mpr ⟨rfl, hc⟩)
  cases o with
  | insert k u v =>
    obtain ⟨tk, tv⟩ := ho
    obtain ⟨i, i1, _, _⟩ := flatten_ty kt k R.key.2.1 tk
    obtain ⟨c, c1, _, _⟩ := flatten_ty vt v R.val.2.1 tv
    simp only [DOp.key] at hz
    rw [DOp.run, dbMapInsert, hz, if_neg (by simp), i1, c1]
    dsimp only
    have hnone : f k = none ↔ rows s i = none := by
      constructor
      · intro hf
        cases hr : rows s i with
        | none => rfl
        | some c' =>
          obtain ⟨k', v', a1, _, a3⟩ := h.only i c' hr
          rw [values_inj R.key.2.1 (h.typed k' v' a3).1 tk a1 i1, hf] at a3
          cases a3
      · intro hr
        cases hf : f k with
        | none => rfl
        | some v' =>
          obtain ⟨c', c1', _, _⟩ := flatten_ty vt v' R.val.2.1 (h.typed k v' hf).2
          rw [h.there k v' i c' hf i1 c1'] at hr; cases hr
    by_cases hcase : f k = none ∨ u = true
    · obtain ⟨s', n, d1, d2, d3, d4⟩ := D.insert_new s i u c (hcase.imp hnone.mp id)
      refine ⟨s', .ok, changeAt f k (some v), by rw [d1]; dsimp only; rw [if_neg d2], ?_, ?_⟩
      · rw [MapStep]; exact .inl ⟨hcase, rfl, changeAt_spec f k _⟩
      · exact h.change R.key.2.1 tk i1 _ (some c) (.inr ⟨v, c, rfl, rfl, tv, c1⟩) d3 d4
    · have hu : u = false := by cases u with | false => rfl | true => exact absurd (.inr rfl) hcase
      have hf : (f k).isSome := by cases hf : f k with | none => exact absurd (.inl hf) hcase | some _ => rfl
      have hr : (rows s i).isSome := by
        cases hr : rows s i with
        | none => rw [hnone.mpr hr] at hf; cases hf
        | some _ => rfl
      subst hu
      obtain ⟨s', n, e, d1, d2, d3⟩ := D.insert_old s i c hr
      refine ⟨s', .duplicate, f, ?_, ?_, by rw [d2]; exact h⟩
      · rw [d1]
        rcases d3 with rfl | ⟨rfl, rfl⟩ <;> rfl
      · rw [MapStep]; exact .inr ⟨hf, rfl, rfl, rfl⟩
  | lookup k =>
    rw [DOp.Proper] at ho
    simp only [DOp.key] at hz
    obtain ⟨ces, es, q1, q2, q3, q4⟩ := keyQuery_ok hS R k ho none (by simp)
    have : ces = none := by
      rcases q1 with ⟨_, h⟩ | ⟨cs, l, h, _⟩
      · exact h
      · cases h
    subst this
    obtain ⟨hh1, hh2⟩ := hhit k none es ho q4
    rw [DOp.run, dbMapLookup, hz, if_neg (by simp), q2]
    dsimp only
    rcases D.search_one s es q3 with ⟨i, c, s', r1, r2, r3, r4⟩ | ⟨r1, s', r2, r3⟩
    · obtain ⟨v, v1, v2, v3, v4, _⟩ := hh1 i c r1 r2
      refine ⟨s', .found v, f, ?_, ?_, by rw [r4]; exact h⟩
      · rw [r3]
        dsimp only
        obtain ⟨_, i1, i2, i3⟩ := flatten_ty kt k R.key.2.1 ho
        obtain ⟨_, c1, c2, _⟩ := flatten_ty vt v R.val.2.1 v2
        rw [v3] at i1; cases i1
        rw [v4] at c1; cases c1
        have hl : m.index.length = i.length := by
          obtain ⟨cs, h1, before, after, h2, h3⟩ := R.keys [] (by rw [Ty.part]; rfl)
          obtain ⟨xs, l, r, h4, h5, h6, h7, h8, _⟩ := h3 k k kt ho (by rw [Ty.part]) (by rw [Val.part])
          have h8 := congrArg List.length h8
          rw [v3] at h4 h5
          have h4 := congrArg List.length (Option.some.inj h4)
          rw [h2]
          simp only [List.length_append, List.length_map] at *
          omega
        rw [decodeRow, hl, List.take_left, List.drop_left]
        have e1 := i2 []
        have e2 := c2 []
        rw [List.append_nil] at e1 e2
        rw [e1, e2]
        rfl
      · rw [MapStep]; exact ⟨rfl, .inl ⟨v, v1, rfl⟩⟩
    · refine ⟨s', .missing, f, by rw [r2], ?_, by rw [r3]; exact h⟩
      rw [MapStep]
      refine ⟨rfl, .inr ⟨?_, rfl⟩⟩
      cases hf : f k with
      | none => rfl
      | some v => exact absurd trivial (hh2 r1 v hf)
  | delete k check =>
    rw [DOp.Proper] at ho
    simp only [DOp.key] at hz
    obtain ⟨ces, es, q1, q2, q3, q4⟩ := keyQuery_ok hS R k ho.1 check ho.2
    obtain ⟨hh1, hh2⟩ := hhit k check es ho.1 q4
    have hrun : (DOp.delete k check).run db m mk mv kt vt isZero s = some (counted (db.delete s m es)) := by
      rcases q1 with ⟨rfl, rfl⟩ | ⟨cs, l, rfl, rfl, q5⟩
      · simp only [DOp.run, dbMapDelete, hz, Option.map_none, q2, Option.map_some, Bool.false_eq_true, if_false]
      · simp only [DOp.run, dbMapDelete, hz, Option.map_some, q5, Option.bind_some, q2, Bool.false_eq_true, if_false]
    rw [hrun]
    rcases D.delete_one s es q3 with ⟨i, c, s', r1, r2, r3, r4, r5⟩ | ⟨r1, s', r2, r3⟩
    · obtain ⟨v, v1, v2, v3, v4, v5⟩ := hh1 i c r1 r2
      refine ⟨s', .did true, changeAt f k none, by rw [r3]; rfl, ?_, h.change R.key.2.1 ho.1 v3 none none (.inl ⟨rfl, rfl⟩) r4 r5⟩
      rw [MapStep]; exact .inl ⟨v, v1, v5, rfl, changeAt_spec f k _⟩
    · refine ⟨s', .did false, f, by rw [r2]; rfl, ?_, by rw [r3]; exact h⟩
      rw [MapStep]; exact .inr ⟨hh2 r1, rfl, rfl⟩
  | mutate k check patch =>
    rw [DOp.Proper] at ho
    simp only [DOp.key] at hz
    obtain ⟨ces, es, q1, q2, q3, q4⟩ := keyQuery_ok hS R k ho.1 check ho.2.1
    obtain ⟨hh1, hh2⟩ := hhit k check es ho.1 q4
    have hnv : (m.value.map (·.1)).Nodup := by
      have := R.names
      rw [List.map_append] at this
      exact this.of_append_right
    obtain ⟨mods, p1, p2⟩ := patch_ok R.val.1 R.val.2.1 hnv R.vals patch ho.2.2
    have hrun : (DOp.mutate k check patch).run db m mk mv kt vt isZero s = some (counted (db.update s m es mods)) := by
      rcases q1 with ⟨rfl, rfl⟩ | ⟨cs, l, rfl, rfl, q5⟩
      · simp only [DOp.run, dbMapMutate, hz, Option.map_none, p1, q2, Option.bind_some, Option.map_some, Bool.false_eq_true, if_false]
      · simp only [DOp.run, dbMapMutate, hz, Option.map_some, p1, q5, Option.bind_some, q2, Bool.false_eq_true, if_false]
    rw [hrun]
    rcases D.update_one s es mods q3 with ⟨i, c, s', r1, r2, r3, r4, r5⟩ | ⟨r1, s', r2, r3⟩
    · obtain ⟨v, v1, v2, v3, v4, v5⟩ := hh1 i c r1 r2
      obtain ⟨t1, t2⟩ := p2 v c v2 v4
      refine ⟨s', .did true, changeAt f k (some (v.puts patch)), by rw [r3]; rfl, ?_,
        h.change R.key.2.1 ho.1 v3 _ (some (setCells m.value c mods)) (.inr ⟨_, _, rfl, rfl, t1, t2⟩) r4 r5⟩
      rw [MapStep]; exact .inl ⟨v, v1, v5, rfl, changeAt_spec f k _⟩
    · refine ⟨s', .did false, f, by rw [r2]; rfl, ?_, by rw [r3]; exact h⟩
      rw [MapStep]; exact .inr ⟨hh2 r1, rfl, rfl⟩

theorem run_ok {σ : Type} {S : Scalars} (hS : S.Lawful) {kt vt : Ty} {m : Opened} {mk mv : Mirror} (R : Ready kt vt m mk mv) {db : Db σ}
    {rows : σ → List Cell → Option (List Cell)} (D : Documented S db m rows) (isZero : Val → Bool) : ∀ (os : List DOp) (s : σ) (f : Val → Option Val), Rel kt vt (rows s) f →
    (∀ o ∈ os, o.Proper kt vt ∧ isZero o.key = false) → ∃ as, runAll db m mk mv kt vt isZero s os = some as ∧ MapRun S kt vt f os as := by
  intro os
  induction os with
  | nil => intro s f _ _; exact ⟨[], rfl, .nil f⟩
  | cons o os ih =>
    intro s f h hos
    obtain ⟨s', a, f', h1, h2, h3⟩ := step_ok hS R D isZero h o (hos o (by simp)).1 (hos o (by simp)).2
    obtain ⟨as, a1, a2⟩ := ih s' f' h3 fun o ho => hos o (List.mem_cons_of_mem _ ho)
    exact ⟨a :: as, by rw [runAll, h1]; dsimp only; rw [a1]; rfl, .cons h2 a2⟩

end Verif.Sql
