import Verif.Pair.Spec
namespace Verif.Pair

theorem disjoint_symm {p q : List Nat} (h : Disjoint p q) : Disjoint q p := ⟨h.2, h.1⟩

theorem disjoint_cons {i j : Nat} {p q : List Nat} (h : Disjoint (i :: p) (j :: q)) : i ≠ j ∨ Disjoint p q := by
  by_cases hij : i = j
  · subst hij
    right
    exact ⟨fun hp => h.1 (List.cons_prefix_cons.2 ⟨rfl, hp⟩), fun hq => h.2 (List.cons_prefix_cons.2 ⟨rfl, hq⟩)⟩
  · exact Or.inl hij

theorem apart_symm {a b : Loc} (h : a.Apart b) : b.Apart a := by
  cases a <;> cases b
  · exact disjoint_symm h
  all_goals trivial

theorem get_set_same {v : Val} {p : List Nat} (h : Has v p) (w : Val) : get (set v p w) p = w := by
  induction h with
  | here v => rw [set, get]
  | there fs i v p hi _ ih =>
    rw [set, get, hi]
    have hlt : i < fs.length := (List.getElem?_eq_some_iff.1 hi).1
    simpa [List.getElem?_set, hlt] using ih

theorem get_set_disjoint (v : Val) (p q : List Nat) (w : Val) (h : Disjoint p q) : get (set v p w) q = get v q := by
  induction p generalizing v q with
  | nil => exact absurd List.nil_prefix h.1
  | cons i p ih =>
    cases q with
    | nil => exact absurd List.nil_prefix h.2
    | cons j q =>
      cases v with
      | struct fs =>
        rw [set, get, get]
        by_cases hij : i = j
        · subst hij
          rcases disjoint_cons h with h' | h'
          · exact absurd rfl h'
          · by_cases hlt : i < fs.length
            · have := ih ((fs[i]?).getD (.scalar 0)) q h'
              simpa [List.getElem?_set, hlt] using this
            · simp [List.getElem?_set, hlt]
        · rw [List.getElem?_set_ne hij]
      | scalar n => rw [set]; simp
      | slice o => rw [set]; simp
      | map o => rw [set]; simp

theorem has_set {v : Val} {q : List Nat} (hq : Has v q) (p : List Nat) (w : Val) (h : Disjoint p q) :
    Has (set v p w) q := by
  induction hq generalizing p with
  | here v => exact absurd List.nil_prefix h.2
  | there fs j v q hj hq ih =>
    cases p with
    | nil => exact absurd List.nil_prefix h.1
    | cons i p =>
      rw [set]
      by_cases hij : i = j
      · subst hij
        have hlt : i < fs.length := (List.getElem?_eq_some_iff.1 hj).1
        refine .there _ i (set v p w) q (by rw [hj]; simp [List.getElem?_set, hlt]) (ih p ?_)
        rcases disjoint_cons h with h' | h'
        · exact absurd rfl h'
        · exact h'
      · exact .there _ j v q (by rw [List.getElem?_set_ne hij]; exact hj) hq

/-- What a pair writes into the second struct. -/
def Field.put : Field → Val → Val
  | .copy fp _, f => fp.read f
  | .slice fp _ _ zi rule, f => .slice (some ((fp.read f).elems.map fun x => rule.toInto x zi))
  | .map fp _ _ zk _ zv _ _, f => .map (some (mapLoop zk zv [] (fp.read f).entries))

theorem toInto_eq (m : Field) (f i : Val) : m.toInto f i = m.isInto.write i (m.put f) := by
  cases m <;> simp only [Field.toInto, Field.isInto, Field.put]

theorem write_apart (a : Loc) (q : List Nat) (h : a.Apart (.path q)) (v w : Val) :
    get (a.write v w) q = get v q := by
  cases a with
  | const c => rfl
  | path p => exact get_set_disjoint v p q w h

theorem has_write (a : Loc) (q : List Nat) (h : a.Apart (.path q)) (v w : Val) (hv : Has v q) :
    Has (a.write v w) q := by
  cases a with
  | const c => exact hv
  | path p => exact has_set hv p w h

theorem toInto_untouched (ms : List Field) (f z : Val) (q : List Nat) (h : ∀ m ∈ ms, m.isInto.Apart (.path q)) :
    get (toInto ms z f) q = get z q := by
  unfold toInto
  induction ms generalizing z with
  | nil => rfl
  | cons m ms ih =>
    rw [List.foldl_cons, ih _ (fun x hx => h x (List.mem_cons_of_mem _ hx)), toInto_eq,
      write_apart _ _ (h m List.mem_cons_self)]

theorem toInto_put (ms : List Field) (hs : OneToOne ms) (f z : Val) (m : Field) (hm : m ∈ ms) (q : List Nat)
    (hq : m.isInto = .path q) (hz : Has z q) : get (toInto ms z f) q = m.put f := by
  induction ms generalizing z with
  | nil => simp at hm
  | cons x xs ih =>
    have hx : (∀ b ∈ xs, x.isFrom.Apart b.isFrom ∧ x.isInto.Apart b.isInto) := (List.pairwise_cons.1 hs).1
    have hxs : OneToOne xs := (List.pairwise_cons.1 hs).2
    have hstep : toInto (x :: xs) z f = toInto xs (x.toInto f z) f := rfl
    rw [hstep]
    by_cases hmx : m ∈ xs
    · refine ih hxs (x.toInto f z) hmx ?_
      have := (hx m hmx).2
      rw [hq] at this
      rw [toInto_eq]
      exact has_write _ _ this _ _ hz
    · have hmx' : m = x := by
        rcases List.mem_cons.1 hm with h | h
        · exact h
        · exact absurd h hmx
      subst hmx'
      rw [toInto_untouched, toInto_eq, hq]
      · exact get_set_same hz _
      · intro b hb
        have := (hx b hb).2
        rw [hq] at this
        exact apart_symm this

theorem flip_isFrom (m : Field) : m.flip.isFrom = m.isInto := by cases m <;> rfl
theorem flip_isInto (m : Field) : m.flip.isInto = m.isFrom := by cases m <;> rfl

theorem flip_toInto (m : Field) (i f : Val) : m.flip.toInto i f = m.toFrom i f := by
  induction m generalizing i f with
  | copy a b => rfl
  | slice a b zf zi r ih =>
    rw [Field.flip, Field.toInto, Field.toFrom]
    simp only [ih]
  | map a b c d e g k v _ _ => rfl

theorem flip_flip (m : Field) : m.flip.flip = m := by
  induction m with
  | copy a b => rfl
  | slice a b zf zi r ih => rw [Field.flip, Field.flip, ih]
  | map a b c d e g k v h1 h2 => rw [Field.flip, Field.flip, h1, h2]

theorem flip_toFrom (m : Field) (f i : Val) : m.flip.toFrom f i = m.toInto f i := by
  rw [← flip_toInto, flip_flip]

theorem toInto_flip (ms : List Field) (z i : Val) : toInto (ms.map Field.flip) z i = toFrom ms z i := by
  unfold toInto toFrom
  rw [List.foldl_map]
  simp only [flip_toInto]

theorem toFrom_flip (ms : List Field) (z f : Val) : toFrom (ms.map Field.flip) z f = toInto ms z f := by
  unfold toInto toFrom
  rw [List.foldl_map]
  simp only [flip_toFrom]

theorem oneToOne_flip (ms : List Field) (h : OneToOne ms) : OneToOne (ms.map Field.flip) := by
  unfold OneToOne
  rw [List.pairwise_map]
  refine List.Pairwise.imp ?_ h
  intro a b hab
  rw [flip_isFrom, flip_isFrom, flip_isInto, flip_isInto]
  exact ⟨hab.2, hab.1⟩

theorem whole_round_trip {r : Field} (hw : Whole r) (x zi zf : Val) (hx : Fits r x) :
    Same x (r.toFrom (r.toInto x zi) zf) := by
  induction hw generalizing x zi zf with
  | copy => exact .refl _
  | slice zf' zi' rule hr ih =>
    cases hx with
    | nil =>
      exact Same.empty
    | slice _ _ _ _ _ vs hvs =>
      show Same _ (Val.slice (some (((vs.map fun x => rule.toInto x zi')).map fun x => rule.toFrom x zf')))
      refine .slice _ _ (by simp) ?_
      intro i h h'
      simp only [List.getElem_map]
      exact ih _ _ _ (hvs _ (List.getElem_mem h))

theorem mapSet_twice (k : Nat) (v : Val) : mapSet (mapSet [] k v) k v = [(k, v)] := by simp [mapSet]

theorem mapLoop_zero (k : Nat) (v : Val) (kvs : List (Nat × Val)) : mapLoop k v [(k, v)] kvs = [(k, v)] := by
  induction kvs with
  | nil => rfl
  | cons x xs ih =>
    rw [mapLoop]
    have : mapSet [(k, v)] k v = [(k, v)] := by simp [mapSet]
    rw [this, ih]

theorem mapLoop_eq (k : Nat) (v : Val) (kvs : List (Nat × Val)) :
    mapLoop k v [] kvs = if kvs = [] then [] else [(k, v)] := by
  cases kvs with
  | nil => rfl
  | cons x xs => rw [mapLoop]; simp [mapSet, mapLoop_zero]

/-! ## Errors -/

theorem isField_iff (l : Loc) (i : Nat) : l.isField i = true ↔ l = .path [i] := by
  cases l <;> simp [Loc.isField]

theorem fromLoop_spec {E : Type} (he : FieldErr E) (loc : Loc) (fs : List SField) (hex : ∀ s ∈ fs, s.exported = true)
    (i : Nat) :
    (∀ k s, fs[k]? = some s → loc = .path [i + k] → fromLoop he loc i fs = .ret (he.withName s.name)) ∧
    ((∀ k, k < fs.length → loc ≠ .path [i + k]) → fromLoop he loc i fs = .next) := by
  induction fs generalizing i with
  | nil => exact ⟨fun k s h => by simp at h, fun _ => rfl⟩
  | cons s fs ih =>
    have hs := hex s List.mem_cons_self
    have ih := ih (fun x hx => hex x (List.mem_cons_of_mem _ hx)) (i + 1)
    rw [fromLoop]
    simp only [hs, if_true]
    refine ⟨fun k t hk hl => ?_, fun h => ?_⟩
    · cases k with
      | zero =>
        simp only [List.getElem?_cons_zero, Option.some.injEq] at hk
        subst hk
        have : loc.isField i = true := (isField_iff _ _).2 (by simpa using hl)
        rw [this]; rfl
      | succ k =>
        have : ¬ loc.isField i = true := by
          rw [isField_iff, hl]; simp
        simp only [this, if_false]
        exact ih.1 k t (by simpa using hk) (by rw [hl]; congr 2; omega)
    · have : ¬ loc.isField i = true := by
        rw [isField_iff]; exact h 0 (by simp)
      simp only [this, if_false]
      refine ih.2 (fun k hk => ?_)
      have := h (k + 1) (by simpa using hk)
      rwa [show i + 1 + k = i + (k + 1) by omega]

theorem pairLoop_skip {E : Type} (he : FieldErr E) (fs : List SField) (hex : ∀ s ∈ fs, s.exported = true) (j : Nat)
    (s : SField) (hs : s.exported = true) (ms : List Field)
    (h : ∀ m ∈ ms, m.isInto = .path [j] → ∀ k, k < fs.length → m.isFrom ≠ .path [k]) :
    pairLoop he (some fs) j s ms = .next := by
  induction ms with
  | nil => rfl
  | cons m ms ih =>
    have ih := ih (fun x hx => h x (List.mem_cons_of_mem _ hx))
    rw [pairLoop]
    simp only [hs, if_true]
    by_cases hm : m.isInto.isField j = true
    · have hn := (fromLoop_spec he m.isFrom fs hex 0).2 (fun k hk => by
        simpa using h m List.mem_cons_self ((isField_iff _ _).1 hm) k hk)
      simp only [hm, if_true, hn]
      exact ih
    · simp only [hm]; exact ih

theorem pairLoop_hit {E : Type} (he : FieldErr E) (fs : List SField) (hex : ∀ s ∈ fs, s.exported = true) (j : Nat)
    (s : SField) (hs : s.exported = true) (ms : List Field) (m : Field) (hm : m ∈ ms) (hi : m.isInto = .path [j])
    (k : Nat) (t : SField) (hk : fs[k]? = some t) (hf : m.isFrom = .path [k])
    (huniq : ∀ x ∈ ms, x.isInto = .path [j] → x.isFrom = m.isFrom) :
    pairLoop he (some fs) j s ms = .ret (he.withName t.name) := by
  induction ms with
  | nil => simp at hm
  | cons x ms ih =>
    rw [pairLoop]
    simp only [hs, if_true]
    by_cases hx : x.isInto.isField j = true
    · have hxf := huniq x List.mem_cons_self ((isField_iff _ _).1 hx)
      have hr := (fromLoop_spec he x.isFrom fs hex 0).1 k t hk (by rw [hxf, hf]; simp)
      simp only [hx, if_true, hr]
    · simp only [hx]
      refine ih ?_ (fun y hy => huniq y (List.mem_cons_of_mem _ hy))
      rcases List.mem_cons.1 hm with rfl | h
      · rw [hi] at hx; simp [Loc.isField] at hx
      · exact h

theorem intoLoop_skip {E : Type} (he : FieldErr E) (from_ : Option (List SField)) (ms : List Field) (fs : List SField)
    (j : Nat) (h : ∀ b s, fs[b]? = some s → s.name = he.fieldName → pairLoop he from_ (j + b) s ms = .next) :
    intoLoop he from_ ms j fs = .next := by
  induction fs generalizing j with
  | nil => rfl
  | cons s fs ih =>
    have ih := ih (j + 1) (fun b t hb hn => by
      have := h (b + 1) t (by simpa using hb) hn
      rwa [show j + 1 + b = j + (b + 1) by omega])
    rw [intoLoop]
    by_cases hn : s.name = he.fieldName
    · have := h 0 s rfl hn
      simp only [Nat.add_zero] at this
      simp only [hn, if_true, this, ih]
    · simp only [hn, if_false, ih]

theorem intoLoop_hit {E : Type} (he : FieldErr E) (from_ : Option (List SField)) (ms : List Field) (fs : List SField)
    (hnd : (fs.map SField.name).Nodup) (j b : Nat) (s : SField) (hb : fs[b]? = some s) (hn : s.name = he.fieldName)
    (r : Step E) (hr : r ≠ .next) (h : pairLoop he from_ (j + b) s ms = r) :
    intoLoop he from_ ms j fs = r := by
  induction fs generalizing j b with
  | nil => simp at hb
  | cons x fs ih =>
    rw [intoLoop]
    cases b with
    | zero =>
      simp only [List.getElem?_cons_zero, Option.some.injEq] at hb
      subst hb
      simp only [Nat.add_zero] at h
      simp only [hn, if_true, h]
      cases r <;> first | rfl | exact absurd rfl hr
    | succ b =>
      have hb' : fs[b]? = some s := by simpa using hb
      have hne : ¬ x.name = he.fieldName := by
        intro hx
        rw [List.map_cons, List.nodup_cons] at hnd
        apply hnd.1
        rw [hx, ← hn]
        exact List.mem_map.2 ⟨s, List.mem_of_getElem? hb', rfl⟩
      simp only [hne, if_false]
      rw [List.map_cons, List.nodup_cons] at hnd
      exact ih hnd.2 (j + 1) b hb' (by rwa [show j + 1 + b = j + (b + 1) by omega])

theorem path_self (p : List Nat) : ¬ Loc.Apart (.path p) (.path p) := fun h => h.1 (List.prefix_refl p)

theorem oneToOne_unique (ms : List Field) (h : OneToOne ms) (m x : Field) (hm : m ∈ ms) (hx : x ∈ ms) (p : List Nat)
    (h1 : m.isInto = .path p) (h2 : x.isInto = .path p) : x.isFrom = m.isFrom := by
  induction ms with
  | nil => simp at hm
  | cons y ms ih =>
    have hy := (List.pairwise_cons.1 h).1
    rcases List.mem_cons.1 hm with rfl | hm' <;> rcases List.mem_cons.1 hx with rfl | hx'
    · rfl
    · have := (hy x hx').2; rw [h1, h2] at this; exact absurd this (path_self p)
    · have := (hy m hm').2; rw [h1, h2] at this; exact absurd this (path_self p)
    · exact ih (List.pairwise_cons.1 h).2 hm' hx'

end Verif.Pair
