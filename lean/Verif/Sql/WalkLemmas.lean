import Verif.Sql.WalkModel
import Verif.Sql.WalkSpec
import Verif.Sql.FlatLemmas

/-! Lemmas about positions, their columns and their values. -/
namespace Verif.Sql

theorem mirrorAt_append (a b : Mirror) (p : List Nat) : mirrorAt (a ++ b) p = (mirrorAt a p).orElse fun _ => mirrorAt b p := by
  induction a with
  | nil => rfl
  | cons e a ih =>
    obtain ⟨q, c⟩ := e
    rw [List.cons_append, mirrorAt, mirrorAt]
    by_cases h : q = p
    · rw [if_pos h, if_pos h]; rfl
    · rw [if_neg h, if_neg h, ih]

theorem mirrorAt_under (i k : Nat) (m : Mirror) (p : List Nat) : mirrorAt (underPos i m) (k :: p) = if i = k then mirrorAt m p else none := by
  induction m with
  | nil => rw [underPos, List.map_nil, mirrorAt, mirrorAt]; split <;> rfl
  | cons e m ih =>
    obtain ⟨q, c⟩ := e
    rw [underPos, List.map_cons, mirrorAt, mirrorAt]
    rw [underPos] at ih
    rw [ih]
    by_cases h : i = k
    · subst h
      rw [if_pos rfl, if_pos rfl]
      by_cases hq : q = p
      · rw [if_pos (by rw [hq]), if_pos hq]
      · rw [if_neg (by intro h; exact hq (List.cons.inj h).2), if_neg hq]
    · rw [if_neg h, if_neg h, if_neg (by intro h'; exact h (List.cons.inj h').1)]

theorem beforeComma_id {l : List Char} (h : ',' ∉ l) : beforeComma l = l := by
  induction l with
  | nil => rfl
  | cons c l ih =>
    rw [beforeComma, if_neg (by intro hc; exact h (by simp [hc])), ih (by intro hm; exact h (List.mem_cons_of_mem _ hm))]

theorem walkName_eq {f : Meta} (h : ',' ∉ f.sql) : walkName f = ownName f := by
  rw [walkName, ownName, beforeComma_id h]

/-! ### Nothing panics -/

theorem elems_some {α : Type} (one : Meta → Option (List Col)) (h : ∀ f, (one f).isSome) (name : List Char) : ∀ (n i : Nat), (columnsOfElems one name i n).isSome := by
  intro n
  induction n with
  | zero => intro i; rfl
  | succ n ih =>
    intro i
    obtain ⟨a, ha⟩ := Option.isSome_iff_exists.mp (h (elemMeta name i))
    obtain ⟨b, hb⟩ := Option.isSome_iff_exists.mp (ih (i + 1))
    rw [columnsOfElems, ha, hb]; rfl

theorem walkElems_some (one : Meta → Option Mirror) (h : ∀ f, (one f).isSome) (name : List Char) : ∀ (n i : Nat), (walkElems one name i n).isSome := by
  intro n
  induction n with
  | zero => intro i; rfl
  | succ n ih =>
    intro i
    obtain ⟨a, ha⟩ := Option.isSome_iff_exists.mp (h (elemMeta name i))
    obtain ⟨b, hb⟩ := Option.isSome_iff_exists.mp (ih (i + 1))
    rw [walkElems, ha, hb]; rfl

mutual
theorem columns_some : (t : Ty) → Supported t → ∀ path f, (columnsOf t path f).isSome
  | .scalar k, _, path, f => by rw [columnsOf]; rfl
  | .struct fs, h, path, f => by rw [Supported] at h; rw [columnsOf]; exact columnsFields_some fs h _
  | .array n t, h, path, f => by
    rw [Supported] at h
    rw [columnsOf]
    exact elems_some (α := Unit) _ (columns_some t h path) _ n 0
  | .unsupported, h, _, _ => by simp [Supported] at h
theorem columnsFields_some : (fs : Fields) → AllSupported fs → ∀ path, (columnsOfFields fs path).isSome
  | .nil, _, path => by rw [columnsOfFields]; rfl
  | .cons f t rest, h, path => by
    rw [AllSupported] at h
    obtain ⟨a, ha⟩ := Option.isSome_iff_exists.mp (columns_some t h.1 path f)
    obtain ⟨b, hb⟩ := Option.isSome_iff_exists.mp (columnsFields_some rest h.2 path)
    rw [columnsOfFields, ha, hb]; rfl
end

mutual
theorem walk_some : (t : Ty) → Supported t → ∀ path f, (walk t path f).isSome
  | .scalar k, _, path, f => by rw [walk, columnsOf]; rfl
  | .struct fs, h, path, f => by
    obtain ⟨c, hc⟩ := Option.isSome_iff_exists.mp (columns_some (.struct fs) h path f)
    rw [Supported] at h
    obtain ⟨m, hm⟩ := Option.isSome_iff_exists.mp (walkFields_some fs h (if f.anonymous then path else path ++ [joinPath path (walkName f)]) 0)
    rw [walk, hc, hm]; rfl
  | .array n t, h, path, f => by
    obtain ⟨c, hc⟩ := Option.isSome_iff_exists.mp (columns_some (.array n t) h path f)
    rw [Supported] at h
    obtain ⟨m, hm⟩ := Option.isSome_iff_exists.mp (walkElems_some (walk t path) (walk_some t h path) (joinPath path (walkName f)) n 0)
    rw [walk, hc, hm]; rfl
  | .unsupported, h, _, _ => by simp [Supported] at h
theorem walkFields_some : (fs : Fields) → AllSupported fs → ∀ path i, (walkFields fs path i).isSome
  | .nil, _, path, i => by rw [walkFields]; rfl
  | .cons f t rest, h, path, i => by
    rw [AllSupported] at h
    obtain ⟨a, ha⟩ := Option.isSome_iff_exists.mp (walk_some t h.1 path f)
    obtain ⟨b, hb⟩ := Option.isSome_iff_exists.mp (walkFields_some rest h.2 path (i + 1))
    rw [walkFields, ha, hb]
    split <;> simp
end

/-! ### The positions registered -/

mutual
/-- Every position registered starts with no number below the one the walk starts at. -/
theorem walkFields_low : (fs : Fields) → ∀ path i m, walkFields fs path i = some m → ∀ k p, k < i → mirrorAt m (k :: p) = none
  | .nil, path, i, m, h, k, p, hk => by rw [walkFields] at h; cases h; rfl
  | .cons f t rest, path, i, m, h, k, p, hk => by
    rw [walkFields] at h
    by_cases he : f.exported = true
    · rw [if_pos he] at h
      cases ha : walk t path f with
      | none => rw [ha] at h; cases h
      | some a =>
        cases hb : walkFields rest path (i + 1) with
        | none => rw [ha, hb] at h; cases h
        | some b =>
          rw [ha, hb] at h
          cases h
          rw [mirrorAt_append, mirrorAt_under, if_neg (by omega), walkFields_low rest path (i + 1) b hb k p (by omega)]
          rfl
    · rw [if_neg he] at h
      exact walkFields_low rest path (i + 1) m h k p (by omega)
end

theorem walkElems_low (one : Meta → Option Mirror) (name : List Char) : ∀ (n i : Nat) (m : Mirror), walkElems one name i n = some m →
    ∀ k p, k < i → mirrorAt m (k :: p) = none := by
  intro n
  induction n with
  | zero => intro i m h k p _; rw [walkElems] at h; cases h; rfl
  | succ n ih =>
    intro i m h k p hk
    rw [walkElems] at h
    cases ha : one (elemMeta name i) with
    | none => rw [ha] at h; cases h
    | some a =>
      cases hb : walkElems one name (i + 1) n with
      | none => rw [ha, hb] at h; cases h
      | some b =>
        rw [ha, hb] at h
        cases h
        rw [mirrorAt_append, mirrorAt_under, if_neg (by omega), ih (i + 1) b hb k p (by omega)]
        rfl

/-! ### The columns of a part -/

/-- The columns of the part at a position are a segment of the columns of the whole, and the values of the part are the
same segment of the values of the whole. -/
def Aligned (cols : List Col) (values : Val → Option (List (Tag × Atom))) (ok : Val → Prop) (get : Val → Option Val) (put : Val → Val → Val) (s : Ty) (cs : List Col) : Prop :=
  ∃ before after, cols = before ++ cs ++ after ∧
    ∀ v w, ok v → get v = some w → HasTy s w ∧ ∃ xs l r, valuesOf s w = some xs ∧ values v = some (l ++ xs ++ r) ∧
      l.length = before.length ∧ r.length = after.length ∧ ∀ x ys, HasTy s x → valuesOf s x = some ys → values (put v x) = some (l ++ ys ++ r)

theorem columns_length {t : Ty} {v : Val} (he : Exported t) (h : HasTy t v) {xs} (hx : valuesOf t v = some xs) {path f cols}
    (hc : columnsOf t path f = some cols) : cols.length = xs.length := by
  obtain ⟨ys, h1, _, h3⟩ := flatten_ty t v he h
  obtain ⟨c, h4, h5⟩ := h3 path f
  rw [h1] at hx; cases hx
  rw [h4] at hc; cases hc
  simpa using congrArg List.length h5

theorem columnsFields_length {fs : Fields} {vs : List Val} (he : AllExported fs) (h : HaveTys fs vs) {xs} (hx : valuesOfFields fs vs = some xs) {path cols}
    (hc : columnsOfFields fs path = some cols) : cols.length = xs.length := by
  obtain ⟨ys, h1, _, h3⟩ := flatten_fields fs vs he h
  obtain ⟨c, h4, h5⟩ := h3 path
  rw [h1] at hx; cases hx
  rw [h4] at hc; cases hc
  simpa using congrArg List.length h5

theorem elems_length {t : Ty} (he : Exported t) {path : List (List Char)} {name : List Char} : ∀ (vs : List Val) (i : Nat), (∀ v ∈ vs, HasTy t v) →
    ∃ xs cols, valuesOfElems t vs = some xs ∧ columnsOfElems (columnsOf t path) name i vs.length = some cols ∧ cols.length = xs.length := by
  intro vs
  induction vs with
  | nil => intro i _; exact ⟨[], [], rfl, by rw [List.length_nil, columnsOfElems], rfl⟩
  | cons v vs ih =>
    intro i h
    obtain ⟨xs, cols, h1, h2, h3⟩ := ih (i + 1) fun v hv => h v (List.mem_cons_of_mem _ hv)
    obtain ⟨ys, j1, _, j3⟩ := flatten_ty t v he (h v (by simp))
    obtain ⟨c, c1, c2⟩ := j3 path (elemMeta name i)
    refine ⟨ys ++ xs, c ++ cols, by rw [valuesOfElems, j1, h1], by rw [List.length_cons, columnsOfElems, c1, h2], ?_⟩
    have := congrArg List.length c2
    simp only [List.length_map] at this
    simp only [List.length_append]
    omega

/-- The property of one type that the induction proves. -/
def PartOk (t : Ty) : Prop :=
  ∀ path f, NoOptions f t → ∀ p s, t.part p = some s → ∃ m cols cs path' f', walk t path f = some m ∧ columnsOf t path f = some cols ∧
    mirrorAt m p = some cs ∧ columnsOf s path' f' = some cs ∧ Aligned cols (valuesOf t) (HasTy t) (·.part p) (·.put p ·) s cs

theorem elems_part {t : Ty} (hs : Supported t) (he : Exported t) (ih : PartOk t) (hn : ∀ name i, NoOptions (elemMeta name i) t) (path : List (List Char)) (name : List Char) (p : List Nat) (s : Ty)
    (hp : t.part p = some s) : ∀ (n j i : Nat), i < n → ∃ m cols cs path' f', walkElems (walk t path) name j n = some m ∧
      columnsOfElems (columnsOf t path) name j n = some cols ∧ mirrorAt m ((j + i) :: p) = some cs ∧ columnsOf s path' f' = some cs ∧
      ∃ before after, cols = before ++ cs ++ after ∧ ∀ vs w, vs.length = n → (∀ v ∈ vs, HasTy t v) → ((vs[i]?).bind fun v => v.part p) = some w →
        HasTy s w ∧ ∃ xs l r, valuesOf s w = some xs ∧ valuesOfElems t vs = some (l ++ xs ++ r) ∧ l.length = before.length ∧ r.length = after.length ∧
          ∀ x ys, HasTy s x → valuesOf s x = some ys → valuesOfElems t (vs.modify i fun v => v.put p x) = some (l ++ ys ++ r) := by
  intro n
  induction n with
  | zero => intro j i hi; omega
  | succ n ihn =>
    intro j i hi
    obtain ⟨m1, cols1, cs1, path1, f1, a1, a2, a3, a4, before1, after1, a5, a6⟩ := ih path (elemMeta name j) (hn name j) p s hp
    obtain ⟨m2, hm2⟩ := Option.isSome_iff_exists.mp (walkElems_some (walk t path) (walk_some t hs path) name n (j + 1))
    obtain ⟨c2, hc2⟩ := Option.isSome_iff_exists.mp (elems_some (α := Unit) (columnsOf t path) (columns_some t hs path) name n (j + 1))
    cases i with
    | zero =>
      refine ⟨underPos j m1 ++ m2, cols1 ++ c2, cs1, path1, f1, by rw [walkElems, a1, hm2], by rw [columnsOfElems, a2, hc2], ?_, a4, before1, after1 ++ c2, ?_, ?_⟩
      · rw [mirrorAt_append, mirrorAt_under, if_pos (by omega), a3]; rfl
      · rw [a5]; simp
      · intro vs w hl hv hw
        cases vs with
        | nil => simp at hl
        | cons v vs =>
          simp only [List.getElem?_cons_zero, Option.bind_some] at hw
          obtain ⟨b1, xs, l, r, b2, b3, b4, b5, b6⟩ := a6 v w (hv v (by simp)) hw
          obtain ⟨ys, cols', d1, d2, d3⟩ := elems_length (path := path) (name := name) he vs (j + 1) fun v h => hv v (List.mem_cons_of_mem _ h)
          have : vs.length = n := by simpa using hl
          rw [this, hc2] at d2
          cases d2
          refine ⟨b1, xs, l, r ++ ys, b2, by rw [valuesOfElems, b3, d1]; simp, b4, by simp only [List.length_append]; omega, ?_⟩
          intro x zs hx hz
          rw [List.modify_zero_cons, valuesOfElems, b6 x zs hx hz, d1]; simp
    | succ i =>
      obtain ⟨m3, cols3, cs3, path3, f3, g1, g2, g3, g4, before3, after3, g5, g6⟩ := ihn (j + 1) i (by omega)
      refine ⟨underPos j m1 ++ m3, cols1 ++ cols3, cs3, path3, f3, by rw [walkElems, a1, g1], by rw [columnsOfElems, a2, g2], ?_, g4, cols1 ++ before3, after3, ?_, ?_⟩
      · rw [mirrorAt_append, mirrorAt_under, if_neg (by omega), show j + (i + 1) = j + 1 + i by omega, g3]; rfl
      · rw [g5]; simp
      · intro vs w hl hv hw
        cases vs with
        | nil => simp at hl
        | cons v vs =>
          simp only [List.getElem?_cons_succ] at hw
          obtain ⟨b1, xs, l, r, b2, b3, b4, b5, b6⟩ := g6 vs w (by simpa using hl) (fun v h => hv v (List.mem_cons_of_mem _ h)) hw
          obtain ⟨ys, y1, _, _⟩ := flatten_ty t v he (hv v (by simp))
          refine ⟨b1, xs, ys ++ l, r, b2, by rw [valuesOfElems, y1, b3]; simp, ?_, b5, ?_⟩
          · have := columns_length he (hv v (by simp)) y1 a2
            simp only [List.length_append]; omega
          · intro x zs hx hz
            rw [List.modify_succ_cons, valuesOfElems, y1, b6 x zs hx hz]; simp

theorem part_self {t : Ty} (hs : Supported t) (he : Exported t) (path : List (List Char)) (f : Meta) {m cols} (hm : walk t path f = some m)
    (hc : columnsOf t path f = some cols) : mirrorAt m [] = some cols ∧ Aligned cols (valuesOf t) (HasTy t) (·.part []) (·.put [] ·) t cols := by
  refine ⟨?_, [], [], by simp, ?_⟩
  · cases t with
    | scalar k => rw [walk, hc] at hm; cases hm; rfl
    | struct fs =>
      rw [walk, hc] at hm
      cases h : walkFields fs (if f.anonymous then path else path ++ [joinPath path (walkName f)]) 0 with
      | none => rw [h] at hm; cases hm
      | some x => rw [h] at hm; cases hm; rfl
    | array n t =>
      rw [walk, hc] at hm
      cases h : walkElems (walk t path) (joinPath path (walkName f)) 0 n with
      | none => rw [h] at hm; cases hm
      | some x => rw [h] at hm; cases hm; rfl
    | unsupported => simp [Supported] at hs
  · intro v w hv hw
    simp only [Val.part] at hw
    cases hw
    obtain ⟨xs, h1, _, _⟩ := flatten_ty t v he hv
    exact ⟨hv, xs, [], [], h1, by rw [h1]; simp, rfl, rfl, fun x ys _ hy => by simp only [Val.put]; rw [hy]; simp⟩

mutual
theorem noOptions_meta : (t : Ty) → (f g : Meta) → NoOptions f t → ',' ∉ g.sql → NoOptions g t
  | .scalar _, _, _, _, _ => by simp [NoOptions]
  | .unsupported, _, _, _, _ => by simp [NoOptions]
  | .struct fs, f, g, h, hg => by rw [NoOptions] at h ⊢; exact ⟨.inr hg, h.2⟩
  | .array n t, f, g, h, hg => by rw [NoOptions] at h ⊢; exact ⟨hg, h.2⟩
end

mutual
theorem part_ok : (t : Ty) → Supported t → Exported t → PartOk t
  | .scalar k, hs, he => by
    intro path f hn p s hp
    cases p with
    | cons i p => simp [Ty.part] at hp
    | nil =>
      rw [Ty.part] at hp; cases hp
      obtain ⟨m, hm⟩ := Option.isSome_iff_exists.mp (walk_some _ hs path f)
      obtain ⟨c, hc⟩ := Option.isSome_iff_exists.mp (columns_some _ hs path f)
      obtain ⟨h1, h2⟩ := part_self hs he path f hm hc
      exact ⟨m, c, c, path, f, hm, hc, h1, hc, h2⟩
  | .unsupported, hs, _ => by simp [Supported] at hs
  | .struct fs, hs, he => by
    intro path f hn p s hp
    obtain ⟨m, hm⟩ := Option.isSome_iff_exists.mp (walk_some _ hs path f)
    obtain ⟨c, hc⟩ := Option.isSome_iff_exists.mp (columns_some _ hs path f)
    cases p with
    | nil =>
      rw [Ty.part] at hp; cases hp
      obtain ⟨h1, h2⟩ := part_self hs he path f hm hc
      exact ⟨m, c, c, path, f, hm, hc, h1, hc, h2⟩
    | cons i p =>
      rw [Ty.part] at hp
      have hc' := hc
      have hm' := hm
      rw [Supported] at hs; rw [Exported] at he; rw [NoOptions] at hn
      have hpath : (if f.anonymous then path else path ++ [joinPath path (walkName f)]) = (if f.anonymous then path else path ++ [joinPath path (ownName f)]) := by
        rcases hn.1 with h | h
        · rw [if_pos h, if_pos h]
        · rw [walkName_eq h]
      rw [walk, hc, hpath] at hm
      obtain ⟨mf, cols, cs, path', f', a1, a2, a3, a4, before, after, a5, a6⟩ :=
        fields_ok fs hs he (if f.anonymous then path else path ++ [joinPath path (ownName f)]) hn.2 0 i p s hp
      rw [a1] at hm
      cases hm
      rw [columnsOf, a2] at hc
      cases hc
      refine ⟨_, _, cs, path', f', hm', hc', ?_, a4, before, after, a5, ?_⟩
      · rw [mirrorAt, if_neg (by simp), ← Nat.zero_add i, a3]
      · intro v w hv hw
        cases v with
        | scalar a => simp [HasTy] at hv
        | many vs =>
          rw [HasTy] at hv
          simp only [Val.part] at hw
          obtain ⟨b1, xs, l, r, b2, b3, b4, b5, b6⟩ := a6 vs w hv hw
          exact ⟨b1, xs, l, r, b2, by rw [valuesOf, b3], b4, b5, fun x ys hx hy => by simp only [Val.put]; rw [valuesOf, b6 x ys hx hy]⟩
  | .array n t, hs, he => by
    intro path f hn p s hp
    obtain ⟨m, hm⟩ := Option.isSome_iff_exists.mp (walk_some _ hs path f)
    obtain ⟨c, hc⟩ := Option.isSome_iff_exists.mp (columns_some _ hs path f)
    cases p with
    | nil =>
      rw [Ty.part] at hp; cases hp
      obtain ⟨h1, h2⟩ := part_self hs he path f hm hc
      exact ⟨m, c, c, path, f, hm, hc, h1, hc, h2⟩
    | cons i p =>
      rw [Ty.part] at hp
      have hc' := hc
      have hm' := hm
      rw [Supported] at hs; rw [Exported] at he; rw [NoOptions] at hn
      by_cases hi : i < n
      · rw [if_pos hi] at hp
        obtain ⟨mf, cols, cs, path', f', a1, a2, a3, a4, before, after, a5, a6⟩ :=
          elems_part hs he (part_ok t hs he) (fun name i => noOptions_meta t _ _ hn.2 (by simp [elemMeta])) path (joinPath path (ownName f)) p s hp n 0 i hi
        rw [walk, hc, walkName_eq hn.1, a1] at hm
        cases hm
        rw [columnsOf, a2] at hc
        cases hc
        refine ⟨_, _, cs, path', f', hm', hc', ?_, a4, before, after, a5, ?_⟩
        · rw [mirrorAt, if_neg (by simp), ← Nat.zero_add i, a3]
        · intro v w hv hw
          cases v with
          | scalar a => simp [HasTy] at hv
          | many vs =>
            rw [HasTy] at hv
            simp only [Val.part] at hw
            obtain ⟨b1, xs, l, r, b2, b3, b4, b5, b6⟩ := a6 vs w hv.1 hv.2 hw
            exact ⟨b1, xs, l, r, b2, by rw [valuesOf, if_pos hv.1, b3], b4, b5, fun x ys hx hy => by simp only [Val.put]; rw [valuesOf, if_pos (by rw [List.length_modify]; exact hv.1), b6 x ys hx hy]⟩
      · rw [if_neg hi] at hp; cases hp
theorem fields_ok : (fs : Fields) → AllSupported fs → AllExported fs → ∀ path, NoOptionsFields fs → ∀ j i p s, ((fs.ty i).bind fun t => t.part p) = some s →
    ∃ m cols cs path' f', walkFields fs path j = some m ∧ columnsOfFields fs path = some cols ∧ mirrorAt m ((j + i) :: p) = some cs ∧
      columnsOf s path' f' = some cs ∧ ∃ before after, cols = before ++ cs ++ after ∧
        ∀ vs w, HaveTys fs vs → ((vs[i]?).bind fun v => v.part p) = some w →
          HasTy s w ∧ ∃ xs l r, valuesOf s w = some xs ∧ valuesOfFields fs vs = some (l ++ xs ++ r) ∧ l.length = before.length ∧ r.length = after.length ∧
            ∀ x ys, HasTy s x → valuesOf s x = some ys → valuesOfFields fs (vs.modify i fun v => v.put p x) = some (l ++ ys ++ r)
  | .nil, _, _, _, _, _, i, p, s, hp => by simp [Fields.ty] at hp
  | .cons f t rest, hs, he, path, hn, j, i, p, s, hp => by
    rw [AllSupported] at hs; rw [AllExported] at he; rw [NoOptionsFields] at hn
    obtain ⟨m2, hm2⟩ := Option.isSome_iff_exists.mp (walkFields_some rest hs.2 path (j + 1))
    obtain ⟨c2, hc2⟩ := Option.isSome_iff_exists.mp (columnsFields_some rest hs.2 path)
    obtain ⟨mt, hmt⟩ := Option.isSome_iff_exists.mp (walk_some t hs.1 path f)
    obtain ⟨ct, hct⟩ := Option.isSome_iff_exists.mp (columns_some t hs.1 path f)
    cases i with
    | zero =>
      simp only [Fields.ty, Option.bind_some] at hp
      obtain ⟨m1, cols1, cs1, path1, f1, a1, a2, a3, a4, before1, after1, a5, a6⟩ := part_ok t hs.1 he.2.1 path f hn.1 p s hp
      refine ⟨underPos j m1 ++ m2, cols1 ++ c2, cs1, path1, f1, by rw [walkFields, if_pos he.1, a1, hm2], by rw [columnsOfFields, a2, hc2], ?_, a4, before1, after1 ++ c2, ?_, ?_⟩
      · rw [mirrorAt_append, mirrorAt_under, if_pos (by omega), a3]; rfl
      · rw [a5]; simp
      · intro vs w hv hw
        cases vs with
        | nil => simp [HaveTys] at hv
        | cons v vs =>
          rw [HaveTys] at hv
          simp only [List.getElem?_cons_zero, Option.bind_some] at hw
          obtain ⟨b1, xs, l, r, b2, b3, b4, b5, b6⟩ := a6 v w hv.1 hw
          obtain ⟨ys, y1, _, _⟩ := flatten_fields rest vs he.2.2 hv.2
          refine ⟨b1, xs, l, r ++ ys, b2, by rw [valuesOfFields, if_pos he.1, b3, y1]; simp, b4, ?_, ?_⟩
          · have := columnsFields_length he.2.2 hv.2 y1 hc2
            simp only [List.length_append]; omega
          · intro x zs hx hz
            rw [List.modify_zero_cons, valuesOfFields, if_pos he.1, b6 x zs hx hz, y1]; simp
    | succ i =>
      rw [Fields.ty] at hp
      obtain ⟨m3, cols3, cs3, path3, f3, g1, g2, g3, g4, before3, after3, g5, g6⟩ := fields_ok rest hs.2 he.2.2 path hn.2 (j + 1) i p s hp
      refine ⟨underPos j mt ++ m3, ct ++ cols3, cs3, path3, f3, by rw [walkFields, if_pos he.1, hmt, g1], by rw [columnsOfFields, hct, g2], ?_, g4, ct ++ before3, after3, ?_, ?_⟩
      · rw [mirrorAt_append, mirrorAt_under, if_neg (by omega), show j + (i + 1) = j + 1 + i by omega, g3]; rfl
      · rw [g5]; simp
      · intro vs w hv hw
        cases vs with
        | nil => simp [HaveTys] at hv
        | cons v vs =>
          rw [HaveTys] at hv
          simp only [List.getElem?_cons_succ] at hw
          obtain ⟨b1, xs, l, r, b2, b3, b4, b5, b6⟩ := g6 vs w hv.2 hw
          obtain ⟨ys, y1, _, _⟩ := flatten_ty t v he.2.1 hv.1
          refine ⟨b1, xs, ys ++ l, r, b2, by rw [valuesOfFields, if_pos he.1, y1, b3]; simp, ?_, b5, ?_⟩
          · have := columns_length he.2.1 hv.1 y1 hct
            simp only [List.length_append]; omega
          · intro x zs hx hz
            rw [List.modify_succ_cons, valuesOfFields, if_pos he.1, y1, b6 x zs hx hz]; simp
end

theorem exported_field {u : Ty} (fs : Fields) : ∀ (i : Nat), AllExported fs → fs.ty i = some u → Exported u := by
  induction fs using Fields.rec (motive_1 := fun _ => True) with
  | scalar => trivial
  | struct => trivial
  | array => trivial
  | unsupported => trivial
  | nil => intro i _ h; simp [Fields.ty] at h
  | cons f t rest _ ih =>
    intro i h hu
    rw [AllExported] at h
    cases i with
    | zero => rw [Fields.ty] at hu; cases hu; exact h.2.1
    | succ i => rw [Fields.ty] at hu; exact ih i h.2.2 hu

theorem exported_part {s : Ty} : ∀ (p : List Nat) (t : Ty), Exported t → t.part p = some s → Exported s := by
  intro p
  induction p with
  | nil => intro t h hp; rw [Ty.part] at hp; cases hp; exact h
  | cons i p ih =>
    intro t h hp
    cases t with
    | scalar k => simp [Ty.part] at hp
    | unsupported => simp [Ty.part] at hp
    | array n t =>
      rw [Ty.part] at hp; rw [Exported] at h
      split at hp
      · exact ih t h hp
      · cases hp
    | struct fs =>
      rw [Ty.part] at hp; rw [Exported] at h
      obtain ⟨u, hu, hp⟩ := Option.bind_eq_some_iff.mp hp
      exact ih u (exported_field fs i h hu) hp

end Verif.Sql
