import Verif.Sql.FlatSpec

namespace Verif.Sql

theorem signed_id {n : Nat} {z : Int} (h : -2 ^ n ≤ z ∧ z < 2 ^ n) : toSigned (n + 1) z = z := by
  unfold toSigned
  have h2 : ((2 ^ (n + 1) : Nat) : Int) = 2 * 2 ^ n := by push_cast; rw [Int.pow_succ]; omega
  apply Int.bmod_eq_of_le
  · rw [h2]; omega
  · rw [h2]; omega

theorem unsigned_id {n : Nat} {z : Int} (h : 0 ≤ z ∧ z < 2 ^ n) : toUnsigned n z = z := Int.emod_eq_of_lt h.1 h.2

/-- A scalar becomes one value with the tag of its column and its own contents. -/
theorem scalar_value {k : Kind} {a : Atom} (h : Fits k a) : valueOfScalar k a = some (tagOf k, a) := by
  cases k <;> cases a <;> first
    | exact h.elim
    | rfl
    | (simp only [valueOfScalar, Atom.mapInt, tagOf, Option.map_some]; rw [signed_id h])
    | (simp only [valueOfScalar, Atom.mapInt, tagOf, Option.map_some]; rw [unsigned_id h])

mutual
theorem zero_value : (t : Ty) → (v : Val) → Exported t → HasTy t v → zeroSize t = true → v = zeroVal t ∧ valuesOf t v = some []
  | .scalar k, v, _, _, h => by cases h
  | .unsupported, v, _, _, h => by cases h
  | .struct fs, .scalar a, _, h, _ => by simp [HasTy] at h
  | .struct fs, .many vs, he, h, hz => by
    rw [HasTy] at h; rw [Exported] at he; rw [zeroSize] at hz
    obtain ⟨h1, h2⟩ := zero_values fs vs he h hz
    exact ⟨by rw [zeroVal, h1], by rw [valuesOf, h2]⟩
  | .array n t, .scalar a, _, h, _ => by simp [HasTy] at h
  | .array n t, .many vs, he, h, hz => by
    rw [HasTy] at h; rw [Exported] at he; rw [zeroSize] at hz
    obtain ⟨hn, hv⟩ := h
    rw [valuesOf, if_pos hn, zeroVal, ← hn]
    have hz : vs = [] ∨ zeroSize t = true := by
      rcases (Bool.or_eq_true ..).mp hz with h | h
      · left; simp at h; subst h; simpa using hn
      · exact .inr h
    rcases hz with hz | hz
    · subst hz; exact ⟨rfl, rfl⟩
    · clear hn
      induction vs with
      | nil => exact ⟨rfl, rfl⟩
      | cons v vs ih =>
        obtain ⟨i1, i2⟩ := ih fun v hv' => hv v (List.mem_cons_of_mem _ hv')
        obtain ⟨j1, j2⟩ := zero_value t v he (hv v (by simp)) hz
        refine ⟨?_, by rw [valuesOfElems, j2, i2]; rfl⟩
        injection i1 with i1
        rw [List.length_cons, List.replicate_succ, ← i1, ← j1]
theorem zero_values : (fs : Fields) → (vs : List Val) → AllExported fs → HaveTys fs vs → zeroSizeFields fs = true → vs = zeroVals fs ∧ valuesOfFields fs vs = some []
  | .nil, [], _, _, _ => ⟨rfl, rfl⟩
  | .nil, _ :: _, _, h, _ => by simp [HaveTys] at h
  | .cons f t rest, [], _, h, _ => by simp [HaveTys] at h
  | .cons f t rest, v :: vs, he, h, hz => by
    rw [HaveTys] at h; rw [AllExported] at he; rw [zeroSizeFields, Bool.and_eq_true] at hz
    obtain ⟨i1, i2⟩ := zero_value t v he.2.1 h.1 hz.1
    obtain ⟨j1, j2⟩ := zero_values rest vs he.2.2 h.2 hz.2
    refine ⟨by rw [zeroVals, ← i1, ← j1], ?_⟩
    rw [valuesOfFields, if_pos he.1, i2, j2]; rfl
end

/-- What flattening and reading back does. -/
def Flattens (t : Ty) (v : Val) : Prop :=
  ∃ xs, valuesOf t v = some xs ∧ (∀ rest, decode t (xs ++ rest) = some (v, rest)) ∧
    ∀ path f, ∃ cols, columnsOf t path f = some cols ∧ cols.map (·.2) = xs.map (·.1)

mutual
theorem flatten_ty : (t : Ty) → (v : Val) → Exported t → HasTy t v → Flattens t v
  | .scalar k, .many vs, _, h => by simp [HasTy] at h
  | .scalar k, .scalar a, _, h => by
    rw [HasTy] at h
    refine ⟨[(tagOf k, a)], by rw [valuesOf, scalar_value h]; rfl, ?_, ?_⟩
    · intro rest; rw [decode]; simp [decodeScalar]
    · intro path f; exact ⟨_, by rw [columnsOf], rfl⟩
  | .unsupported, v, _, h => by cases v <;> simp [HasTy] at h
  | .struct fs, .scalar a, _, h => by simp [HasTy] at h
  | .struct fs, .many vs, he, h => by
    have h' := h
    rw [HasTy] at h
    have he' := he
    rw [Exported] at he
    obtain ⟨xs, h1, h2, h3⟩ := flatten_fields fs vs he h
    refine ⟨xs, by rw [valuesOf, h1], ?_, ?_⟩
    · intro rest
      rw [decode]
      by_cases hz : zeroSizeFields fs = true
      · obtain ⟨z1, z2⟩ := zero_value _ _ he' h' (by rw [zeroSize]; exact hz)
        rw [valuesOf, h1] at z2
        injection z2 with z2
        rw [if_pos hz, ← z1, z2]; rfl
      · rw [if_neg hz]
        simp [h2]
    · intro path f
      obtain ⟨cols, c1, c2⟩ := h3 (if f.anonymous then path else path ++ [joinPath path (ownName f)])
      exact ⟨cols, by rw [columnsOf, c1], c2⟩
  | .array n t, .scalar a, _, h => by simp [HasTy] at h
  | .array n t, .many vs, he, h => by
    have h' := h
    rw [HasTy] at h
    obtain ⟨hn, hv⟩ := h
    have he' := he
    rw [Exported] at he
    have key : ∃ xs, valuesOfElems t vs = some xs ∧ (∀ rest, decodeElems (decode t) vs.length (xs ++ rest) = some (vs, rest)) ∧
        ∀ path name i, ∃ cols, columnsOfElems (columnsOf t path) name i vs.length = some cols ∧ cols.map (·.2) = xs.map (·.1) := by
      clear hn h'
      induction vs with
      | nil =>
        refine ⟨[], rfl, ?_, ?_⟩
        · intro rest; rw [List.length_nil, decodeElems]; rfl
        · intro path name i; exact ⟨[], by rw [List.length_nil, columnsOfElems], rfl⟩
      | cons v vs ih =>
        obtain ⟨xs, i1, i2, i3⟩ := ih fun v hv' => hv v (List.mem_cons_of_mem _ hv')
        obtain ⟨ys, j1, j2, j3⟩ := flatten_ty t v he (hv v (by simp))
        refine ⟨ys ++ xs, by rw [valuesOfElems, j1, i1], ?_, ?_⟩
        · intro rest
          rw [List.length_cons, decodeElems, List.append_assoc, j2]
          dsimp only
          rw [i2]
        · intro path name i
          obtain ⟨c1, c2, c3⟩ := j3 path (elemMeta name i)
          obtain ⟨d1, d2, d3⟩ := i3 path name (i + 1)
          refine ⟨c1 ++ d1, by rw [List.length_cons, columnsOfElems, c2, d2], ?_⟩
          rw [List.map_append, List.map_append, c3, d3]
    obtain ⟨xs, k1, k2, k3⟩ := key
    refine ⟨xs, by rw [valuesOf, if_pos hn, k1], ?_, ?_⟩
    · intro rest
      rw [decode]
      by_cases hz : (n == 0 || zeroSize t) = true
      · obtain ⟨z1, z2⟩ := zero_value _ _ he' h' (by rw [zeroSize]; exact hz)
        rw [valuesOf, if_pos hn, k1] at z2
        injection z2 with z2
        rw [if_pos hz, ← z1, z2]; rfl
      · rw [if_neg hz, ← hn]
        simp [k2]
    · intro path f
      obtain ⟨cols, c1, c2⟩ := k3 path (joinPath path (ownName f)) 0
      exact ⟨cols, by rw [columnsOf, ← hn, c1], c2⟩
theorem flatten_fields : (fs : Fields) → (vs : List Val) → AllExported fs → HaveTys fs vs →
    ∃ xs, valuesOfFields fs vs = some xs ∧ (∀ rest, decodeFields fs (xs ++ rest) = some (vs, rest)) ∧
      ∀ path, ∃ cols, columnsOfFields fs path = some cols ∧ cols.map (·.2) = xs.map (·.1)
  | .nil, [], _, _ => by
    refine ⟨[], rfl, ?_, ?_⟩
    · intro rest; rw [decodeFields]; rfl
    · intro path; exact ⟨[], by rw [columnsOfFields], rfl⟩
  | .nil, _ :: _, _, h => by simp [HaveTys] at h
  | .cons f t rest, [], _, h => by simp [HaveTys] at h
  | .cons f t rest, v :: vs, he, h => by
    rw [HaveTys] at h; rw [AllExported] at he
    obtain ⟨ys, j1, j2, j3⟩ := flatten_ty t v he.2.1 h.1
    obtain ⟨xs, i1, i2, i3⟩ := flatten_fields rest vs he.2.2 h.2
    refine ⟨ys ++ xs, by rw [valuesOfFields, if_pos he.1, j1, i1], ?_, ?_⟩
    · intro more
      rw [decodeFields, if_pos he.1, List.append_assoc, j2]
      dsimp only
      rw [i2]
    · intro path
      obtain ⟨c1, c2, c3⟩ := j3 path f
      obtain ⟨d1, d2, d3⟩ := i3 path
      refine ⟨c1 ++ d1, by rw [columnsOfFields, c2, d2], ?_⟩
      rw [List.map_append, List.map_append, c3, d3]
end

/-! ### Names -/

theorem beforeComma_eq (l : List Char) : beforeComma l = l.takeWhile (· != ',') := by
  induction l with
  | nil => rfl
  | cons c l ih =>
    rw [beforeComma, List.takeWhile_cons]
    by_cases e : c = ','
    · subst e; rfl
    · rw [if_neg e, ih]; simp [e]

theorem ownName_eq (f : Meta) : ownName f = docOwn f := by
  unfold ownName docOwn
  cases h1 : f.sql with
  | nil =>
    cases h2 : f.txt with
    | nil => simp
    | cons a l => simp
  | cons a l => simp [beforeComma_eq]

theorem joinPath_eq (path : List (List Char)) (own : List Char) : joinPath path own = docJoin (path ++ [own]) := by
  induction path with
  | nil => simp [joinPath, docJoin]
  | cons p ps ih =>
    rw [joinPath, ih, docJoin, docJoin, List.cons_append]
    cases hps : ps ++ [own] with
    | nil => simp at hps
    | cons x xs => simp [List.intercalate]

mutual
theorem leafy_names : (t : Ty) → (path : List (List Char)) → (f : Meta) → Leafy f.anonymous t →
    ∃ cols, columnsOf t path f = some cols ∧ cols.map (·.1) = docNames t path (docOwn f) f.anonymous
  | .scalar k, path, f, _ => ⟨_, by rw [columnsOf], by rw [docNames, joinPath_eq, ownName_eq]; rfl⟩
  | .unsupported, _, f, h => by simp [Leafy] at h
  | .array n t, _, f, h => by simp [Leafy] at h
  | .struct fs, path, f, h => by
    rw [Leafy] at h
    obtain ⟨cols, h1, h2⟩ := leafy_fields fs path h.2
    refine ⟨cols, ?_, ?_⟩
    · rw [columnsOf, if_pos h.1, h1]
    · rw [docNames, if_pos h.1, h2]
theorem leafy_fields : (fs : Fields) → (path : List (List Char)) → LeafyFields fs →
    ∃ cols, columnsOfFields fs path = some cols ∧ cols.map (·.1) = docNamesFields fs path
  | .nil, path, _ => ⟨[], by rw [columnsOfFields], by rw [docNamesFields]; rfl⟩
  | .cons f t rest, path, h => by
    rw [LeafyFields] at h
    obtain ⟨a, a1, a2⟩ := leafy_names t path f h.1
    obtain ⟨b, b1, b2⟩ := leafy_fields rest path h.2
    refine ⟨a ++ b, by rw [columnsOfFields, a1, b1], ?_⟩
    rw [List.map_append, a2, b2, docNamesFields]
end

mutual
theorem shallow_names : (t : Ty) → (f : Meta) → Shallow f.anonymous t →
    ∃ cols, columnsOf t [] f = some cols ∧ cols.map (·.1) = docNames t [] (docOwn f) f.anonymous
  | .scalar k, f, _ => ⟨_, by rw [columnsOf], by rw [docNames, joinPath_eq, ownName_eq]; rfl⟩
  | .unsupported, f, h => by simp [Shallow] at h
  | .array n t, f, h => by simp [Shallow] at h
  | .struct fs, f, h => by
    rw [Shallow] at h
    by_cases ha : f.anonymous = true
    · rw [if_pos ha] at h
      obtain ⟨cols, h1, h2⟩ := shallow_fields fs h
      exact ⟨cols, by rw [columnsOf, if_pos ha, h1], by rw [docNames, if_pos ha, h2]⟩
    · rw [if_neg ha] at h
      obtain ⟨cols, h1, h2⟩ := leafy_fields fs [docOwn f] h
      exact ⟨cols, by rw [columnsOf, if_neg ha, ownName_eq]; exact h1, by rw [docNames, if_neg ha]; exact h2⟩
theorem shallow_fields : (fs : Fields) → ShallowFields fs →
    ∃ cols, columnsOfFields fs [] = some cols ∧ cols.map (·.1) = docNamesFields fs []
  | .nil, _ => ⟨[], by rw [columnsOfFields], by rw [docNamesFields]; rfl⟩
  | .cons f t rest, h => by
    rw [ShallowFields] at h
    obtain ⟨a, a1, a2⟩ := shallow_names t f h.1
    obtain ⟨b, b1, b2⟩ := shallow_fields rest h.2
    refine ⟨a ++ b, by rw [columnsOfFields, a1, b1], ?_⟩
    rw [List.map_append, a2, b2, docNamesFields]
end

end Verif.Sql
