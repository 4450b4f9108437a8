import Verif.Zgo.CompSpec
import Mathlib.Data.List.Nodup
import Mathlib.Data.List.Induction
import Mathlib.Data.List.Perm.Subperm
/-!
# C201: composite literals
-/
namespace Verif.Zgo.Comp
namespace Spec

/-- The literals that are accepted: all elements of an array, without keys; slices without keys; structs with all their fields; maps with
string keys. None has elements without their types. -/
def Accepted {K V : Type} : Ty K → List (Elem K V) → Prop
  | .array n, es => (∀ e ∈ es, ∃ v, e = .value v) ∧ es.length = n
  | .slice, es => ∀ e ∈ es, ∃ v, e = .value v
  | .struct fields, es => (∀ e ∈ es, e ≠ .elided) ∧ es.length = fields.length
  | .smap, es => ∀ e ∈ es, ∃ k v, e = .keyed k v
  | .map, _ => False

/-- A literal of Go: what Go demands of structs. -/
def Valid {K V : Type} : Ty K → List (Elem K V) → Prop
  | .struct fields, es => fields.Nodup ∧ StructOk fields es
  | _, _ => True

end Spec

section
variable {K V : Type}

theorem positional_values : ∀ (es : List (Elem K V)) (vs : List V),
    (positional es).bind values = some vs ↔ es = vs.map .value
  | [], vs => by
    cases vs <;> simp [positional, values]
  | .value v :: es, vs => by
    have ih := positional_values es
    cases hp : positional es with
    | none =>
      have : ∀ ws : List V, es ≠ ws.map .value := fun ws hw => by
        have := (ih ws).2 hw
        rw [hp] at this
        cases this
      cases vs with
      | nil => simp [positional, hp]
      | cons w ws => simp [positional, hp, this ws]
    | some zs =>
      rw [hp] at ih
      cases vs with
      | nil => simp [positional, hp, values]
      | cons w ws =>
        have := ih ws
        simp only [Option.bind_some] at this
        simp only [positional, hp, Option.map_some, Option.bind_some, values, List.map_cons, List.cons.injEq, Elem.value.injEq]
        rw [← this]
        cases values zs with
        | none => simp
        | some us => simp
  | .keyed k v :: es, vs => by
    cases hp : positional es <;> cases vs <;> simp [positional, hp, values]
  | .elided :: es, vs => by
    cases vs <;> simp [positional]

theorem mapElems_pairs : ∀ (es : List (Elem K V)) (ps : List (K × V)),
    (mapElems es).bind pairsOf = some ps ↔ es = ps.map fun p => .keyed p.1 p.2
  | [], ps => by
    cases ps <;> simp [mapElems, pairsOf]
  | .keyed k v :: es, ps => by
    have ih := mapElems_pairs es
    cases hp : mapElems es with
    | none =>
      have : ∀ ws : List (K × V), es ≠ ws.map fun p => .keyed p.1 p.2 := fun ws hw => by
        have := (ih ws).2 hw
        rw [hp] at this
        cases this
      cases ps with
      | nil => simp [mapElems, hp]
      | cons w ws => simp [mapElems, hp, this ws]
    | some zs =>
      rw [hp] at ih
      cases ps with
      | nil => simp [mapElems, hp, pairsOf]
      | cons w ws =>
        have := ih ws
        simp only [Option.bind_some] at this
        simp only [mapElems, hp, Option.map_some, Option.bind_some, pairsOf, List.map_cons, List.cons.injEq, Elem.keyed.injEq]
        rw [← this]
        obtain ⟨a, b⟩ := w
        cases pairsOf zs with
        | none => simp
        | some us => simp
  | .value v :: es, ps => by
    cases ps <;> simp [mapElems]
  | .elided :: es, ps => by
    cases ps <;> simp [mapElems]

theorem struct_keyed (fields : List K) : ∀ (es : List (Elem K V)) (i : Nat), (∀ e ∈ es, ∃ k v, e = .keyed k v ∧ k ∈ fields) →
    ∃ ps : List (K × V), es = ps.map (fun p => .keyed p.1 p.2) ∧ (structElems fields i es).bind fieldsOf = some ps
  | [], i, _ => ⟨[], rfl, rfl⟩
  | e :: es, i, h => by
    obtain ⟨k, v, he, hk⟩ := h e (by simp)
    obtain ⟨ps, h1, h2⟩ := struct_keyed fields es (i + 1) (fun x hx => h x (by simp [hx]))
    refine ⟨(k, v) :: ps, by simp [he, ← h1], ?_⟩
    subst he
    cases hs : structElems fields (i + 1) es with
    | none => rw [hs] at h2; cases h2
    | some zs =>
      rw [hs] at h2
      simp only [Option.bind_some] at h2
      simp [structElems, hs, fieldsOf, h2]

theorem struct_values (fields : List K) : ∀ (vs : List V) (i : Nat), i + vs.length ≤ fields.length →
    (structElems fields i (vs.map Elem.value)).bind fieldsOf = some ((fields.drop i).zip vs)
  | [], i, _ => by simp [structElems, fieldsOf]
  | v :: vs, i, h => by
    simp only [List.length_cons] at h
    have ih := struct_values fields vs (i + 1) (by omega)
    have hi : i < fields.length := by omega
    cases hs : structElems fields (i + 1) (vs.map Elem.value) with
    | none => rw [hs] at ih; cases ih
    | some zs =>
      rw [hs] at ih
      simp only [Option.bind_some] at ih
      have hd : fields.drop i = fields[i] :: fields.drop (i + 1) := List.drop_eq_getElem_cons hi
      rw [hd, List.map_cons, structElems, List.getElem?_eq_getElem hi, hs]
      simp only [Option.map_some, Option.bind_some, fieldsOf, ih, List.zip_cons_cons]

theorem struct_elided (fields : List K) : ∀ (es : List (Elem K V)) (i : Nat), Elem.elided ∈ es → structElems fields i es = none
  | .elided :: _, _, _ => rfl
  | .value v :: es, i, h => by
    have ih := struct_elided fields es (i + 1) (by simpa using h)
    unfold structElems
    rw [ih]
    split <;> rfl
  | .keyed k v :: es, i, h => by
    have ih := struct_elided fields es (i + 1) (by simpa using h)
    unfold structElems
    rw [ih]
    rfl

/-- All elements are values. -/
theorem all_values : ∀ (es : List (Elem K V)), (∀ e ∈ es, ∃ v, e = .value v) → ∃ vs : List V, es = vs.map .value
  | [], _ => ⟨[], rfl⟩
  | e :: es, h => by
    obtain ⟨v, hv⟩ := h e (by simp)
    obtain ⟨vs, hvs⟩ := all_values es (fun x hx => h x (by simp [hx]))
    exact ⟨v :: vs, by simp [hv, hvs]⟩

theorem all_keyed : ∀ (es : List (Elem K V)), (∀ e ∈ es, ∃ k v, e = .keyed k v) → ∃ ps : List (K × V), es = ps.map (fun p => .keyed p.1 p.2)
  | [], _ => ⟨[], rfl⟩
  | e :: es, h => by
    obtain ⟨k, v, hv⟩ := h e (by simp)
    obtain ⟨ps, hps⟩ := all_keyed es (fun x hx => h x (by simp [hx]))
    exact ⟨(k, v) :: ps, by simp [hv, hps]⟩

theorem indexed_values (L : Spec.Lits K V) : ∀ (vs : List V) (i : Nat), Spec.indexed L i (vs.map .value) = (List.range' i vs.length).zip vs
  | [], _ => rfl
  | v :: vs, i => by
    simp only [List.map_cons, Spec.indexed, List.length_cons, List.range'_succ, List.zip_cons_cons]
    rw [indexed_values L vs (i + 1)]

theorem at_zip : ∀ (vs : List V) (i j : Nat), Spec.at_ ((List.range' i vs.length).zip vs) (i + j) = vs[j]?
  | [], _, _ => rfl
  | v :: vs, i, 0 => by simp [Spec.at_, List.range'_succ]
  | v :: vs, i, j + 1 => by
    have ih := at_zip vs (i + 1) j
    unfold Spec.at_ at ih ⊢
    simp only [List.length_cons, List.range'_succ, List.zip_cons_cons]
    rw [List.find?_cons_of_neg (by simp), show i + (j + 1) = i + 1 + j by omega, ih]
    simp

theorem size_zip : ∀ (vs : List V) (i n : Nat), n = i →
    ((List.range' i vs.length).zip vs).foldl (fun n p => max n (p.1 + 1)) n = i + vs.length
  | [], i, n, h => by simp [h]
  | v :: vs, i, n, h => by
    simp only [List.length_cons, List.range'_succ, List.zip_cons_cons, List.foldl_cons]
    rw [size_zip vs (i + 1) (max n (i + 1)) (by omega)]
    omega

theorem list_values (L : Spec.Lits K V) (vs : List V) : Spec.list L vs.length (vs.map .value) = vs := by
  unfold Spec.list
  rw [indexed_values L vs 0]
  apply List.ext_getElem
  · simp
  intro i h1 h2
  simp only [List.getElem_map, List.getElem_range]
  have := at_zip vs 0 i
  rw [Nat.zero_add] at this
  rw [this, List.getElem?_eq_getElem h2]

theorem size_values (L : Spec.Lits K V) (vs : List V) : Spec.size (Spec.indexed L 0 (vs.map .value)) = vs.length := by
  rw [indexed_values L vs 0]
  unfold Spec.size
  rw [size_zip vs 0 0 rfl]
  omega

theorem zip_covers (fields : List K) (vs : List V) (hl : vs.length ≤ fields.length) (hn : fields.Nodup)
    (hc : ∀ f ∈ fields, f ∈ (fields.zip vs).map Prod.fst) : vs.length = fields.length := by
  have := (List.subperm_of_subset hn hc).length_le
  simp at this
  omega

end

section
variable {K V : Type} [DecidableEq K]

/-- The entries after a put. -/
theorem mem_put : ∀ (es : List (K × V)) (k : K) (v : V), (es.map Prod.fst).Nodup → ∀ k' v',
    ((k', v') ∈ put es k v ↔ if k' = k then v' = v else (k', v') ∈ es)
  | [], k, v, _, k', v' => by
    simp only [put, List.mem_singleton, Prod.mk.injEq]
    by_cases h : k' = k <;> simp [h]
  | (a, b) :: es, k, v, hn, k', v' => by
    simp only [List.map_cons, List.nodup_cons] at hn
    unfold put
    by_cases ha : a = k
    · rw [if_pos ha]
      subst ha
      by_cases hk : k' = a
      · subst hk
        have : ∀ x, (k', x) ∉ es := fun x hx => hn.1 (List.mem_map_of_mem (f := Prod.fst) hx)
        simp [this]
      · simp [hk]
    · rw [if_neg ha, List.mem_cons, mem_put es k v hn.2 k' v']
      by_cases hk : k' = k
      · subst hk
        simp [Ne.symm ha]
      · simp [hk]

theorem put_keys : ∀ (es : List (K × V)) (k : K) (v : V), ∀ x ∈ (put es k v).map Prod.fst, x = k ∨ x ∈ es.map Prod.fst
  | [], k, v => by simp [put]
  | (a, b) :: es, k, v => by
    unfold put
    intro x hx
    split at hx
    · rename_i h
      simp only [List.map_cons, List.mem_cons] at hx ⊢
      rcases hx with h' | h'
      · exact Or.inl h'
      · exact Or.inr (Or.inr h')
    · simp only [List.map_cons, List.mem_cons] at hx ⊢
      rcases hx with h' | h'
      · exact Or.inr (Or.inl h')
      · rcases put_keys es k v x h' with h'' | h''
        · exact Or.inl h''
        · exact Or.inr (Or.inr h'')

theorem put_nodup : ∀ (es : List (K × V)) (k : K) (v : V), (es.map Prod.fst).Nodup → ((put es k v).map Prod.fst).Nodup
  | [], k, v, _ => by simp [put]
  | (a, b) :: es, k, v, hn => by
    simp only [List.map_cons, List.nodup_cons] at hn
    unfold put
    split
    · rename_i h
      subst h
      simp only [List.map_cons, List.nodup_cons]
      exact hn
    · rename_i h
      simp only [List.map_cons, List.nodup_cons]
      refine ⟨fun hm => ?_, put_nodup es k v hn.2⟩
      rcases put_keys es k v a hm with h' | h'
      · exact h h'
      · exact hn.1 h'

theorem lookup_mem : ∀ (es : List (K × V)), (es.map Prod.fst).Nodup → ∀ k v, (lookup es k = some v ↔ (k, v) ∈ es)
  | [], _, k, v => by simp [lookup]
  | (a, b) :: es, hn, k, v => by
    simp only [List.map_cons, List.nodup_cons] at hn
    unfold lookup
    by_cases h : a = k
    · subst h
      have : ∀ x, (a, x) ∉ es := fun x hx => hn.1 (List.mem_map_of_mem (f := Prod.fst) hx)
      simp [this, eq_comm]
    · rw [if_neg h, lookup_mem es hn.2 k v]
      simp [Ne.symm h]

theorem entry_append (es : List (Elem K V)) (e : K × V) (k : K) :
    Spec.entry (es ++ [.keyed e.1 e.2]) k = if e.1 = k then some e.2 else Spec.entry es k := by
  unfold Spec.entry
  simp only [List.reverse_append, List.reverse_cons, List.reverse_nil, List.nil_append, List.cons_append, List.findSome?_cons]
  by_cases h : e.1 = k <;> simp [h, Spec.keyed?]

theorem literal_snoc (ps : List (K × V)) (p : K × V) : literal (ps ++ [p]) = put (literal ps) p.1 p.2 := by
  simp [literal, List.foldl_append]

theorem literal_spec (ps : List (K × V)) : ((literal ps).map Prod.fst).Nodup ∧
    ∀ k v, (k, v) ∈ literal ps ↔ Spec.entry (ps.map fun p => Elem.keyed p.1 p.2) k = some v := by
  induction ps using List.reverseRecOn with
  | nil => exact ⟨by simp [literal], by simp [literal, Spec.entry]⟩
  | append_singleton ps p ih =>
    rw [literal_snoc]
    refine ⟨put_nodup _ _ _ ih.1, fun k v => ?_⟩
    rw [mem_put _ _ _ ih.1, List.map_append, List.map_singleton, entry_append]
    by_cases h : k = p.1
    · subst h; simp [eq_comm]
    · rw [if_neg h, if_neg (Ne.symm h)]; exact ih.2 k v

/-- A struct's value in Zig, by the form of the literal. -/
theorem struct_value (L : Spec.Lits K V) (fields : List K) (es : List (Elem K V)) (hn : fields.Nodup) (hs : Spec.StructOk fields es) :
    (∃ z, (structElems fields 0 es).bind (zig (.struct fields)) = some z) ↔ Spec.Accepted (.struct fields) es := by
  constructor
  · rintro ⟨z, hz⟩
    have hne : ∀ e ∈ es, e ≠ .elided := by
      intro e he h
      subst h
      rw [struct_elided fields es 0 he] at hz
      cases hz
    refine ⟨hne, ?_⟩
    rcases hs with ⟨hp, hl⟩ | ⟨hk, hd⟩
    · obtain ⟨vs, rfl⟩ := all_values es (fun e he => by
        obtain ⟨v, h | h⟩ := hp e he
        · exact ⟨v, h⟩
        · exact absurd h (hne e he))
      have hl' : vs.length ≤ fields.length := by
        rcases hl with h | h
        · simp at h; simp [h]
        · simp at h; omega
      have := struct_values fields vs 0 (by omega)
      cases hc : structElems fields 0 (vs.map Elem.value) with
      | none => rw [hc] at hz; cases hz
      | some zs =>
        rw [hc] at hz this
        simp only [Option.bind_some, zig, List.drop_zero] at hz this
        rw [this, Option.bind_some] at hz
        split at hz
        · rename_i hh
          simp [zip_covers fields vs hl' hn hh.2.1]
        · cases hz
    · obtain ⟨ps, rfl, h2⟩ := struct_keyed fields es 0 hk
      cases hc : structElems fields 0 (ps.map fun p => Elem.keyed p.1 p.2) with
      | none => rw [hc] at hz; cases hz
      | some zs =>
        rw [hc] at hz h2
        simp only [Option.bind_some, zig] at hz h2
        rw [h2, Option.bind_some] at hz
        split at hz
        · rename_i hh
          have h1 := (List.subperm_of_subset hh.1 hh.2.2).length_le
          have h2 := (List.subperm_of_subset hn hh.2.1).length_le
          simp at h1 h2 ⊢
          omega
        · cases hz
  · rintro ⟨hne, hlen⟩
    rcases hs with ⟨hp, hl⟩ | ⟨hk, hd⟩
    · obtain ⟨vs, rfl⟩ := all_values es (fun e he => by
        obtain ⟨v, h | h⟩ := hp e he
        · exact ⟨v, h⟩
        · exact absurd h (hne e he))
      simp only [List.length_map] at hlen
      have := struct_values fields vs 0 (by omega)
      cases hc : structElems fields 0 (vs.map Elem.value) with
      | none => rw [hc] at this; cases this
      | some zs =>
        rw [hc] at this
        simp only [Option.bind_some, zig, List.drop_zero] at this ⊢
        rw [this, Option.bind_some, if_pos]
        · exact ⟨_, rfl⟩
        · have : (fields.zip vs).map Prod.fst = fields := List.map_fst_zip (by omega)
          rw [this]
          exact ⟨hn, fun f h => h, fun f h => h⟩
    · obtain ⟨ps, rfl, h2⟩ := struct_keyed fields es 0 hk
      cases hc : structElems fields 0 (ps.map fun p => Elem.keyed p.1 p.2) with
      | none => rw [hc] at h2; cases h2
      | some zs =>
        rw [hc] at h2
        simp only [Option.bind_some, zig] at h2 ⊢
        rw [h2, Option.bind_some, if_pos]
        · exact ⟨_, rfl⟩
        · have hd' : (ps.map Prod.fst).Nodup := by
            have he : (ps.map fun p => Elem.keyed p.1 p.2).filterMap Spec.key? = ps.map Prod.fst := by
              rw [List.filterMap_map, ← List.filterMap_eq_map]
              rfl
            have : ∀ l : List K, l = ps.map Prod.fst → l.Nodup → (ps.map Prod.fst).Nodup := fun l h1 h2 => h1 ▸ h2
            exact this _ he hd
          have hsub : ∀ f ∈ ps.map Prod.fst, f ∈ fields := by
            intro f hf
            obtain ⟨p, hp, rfl⟩ := List.mem_map.1 hf
            obtain ⟨k, v, he, hk'⟩ := hk _ (List.mem_map_of_mem (f := fun p : K × V => Elem.keyed p.1 p.2) hp)
            cases he
            exact hk'
          refine ⟨hd', ?_, hsub⟩
          have hp := (List.subperm_of_subset hd' hsub).perm_of_length_le (by simp at hlen ⊢; omega)
          intro f hf
          exact hp.mem_iff.2 hf

/-- **C201** (which): the literals that compile and that Zig accepts. -/
theorem accepted_iff (L : Spec.Lits K V) (t : Ty K) (es : List (Elem K V)) (hv : Spec.Valid t es) :
    (∃ z, (compile t es).bind (zig t) = some z) ↔ Spec.Accepted t es := by
  cases t with
  | array n =>
    unfold compile Spec.Accepted
    dsimp only
    constructor
    · rintro ⟨z, hz⟩
      cases hp : positional es with
      | none => rw [hp] at hz; cases hz
      | some zs =>
        rw [hp, Option.bind_some] at hz
        unfold zig at hz
        dsimp only at hz
        cases hvs : values zs with
        | none => rw [hvs] at hz; cases hz
        | some vs =>
          rw [hvs, Option.bind_some] at hz
          have := (positional_values es vs).1 (by rw [hp, Option.bind_some, hvs])
          subst this
          split at hz
          · rename_i hl
            exact ⟨by simp, by simpa using hl⟩
          · cases hz
    · rintro ⟨h1, h2⟩
      obtain ⟨vs, rfl⟩ := all_values es h1
      have := (positional_values (K := K) _ vs).2 rfl
      cases hp : positional (vs.map (Elem.value (K := K))) with
      | none => rw [hp] at this; cases this
      | some zs =>
        rw [hp, Option.bind_some] at this
        simp only [List.length_map] at h2
        simp [zig, this, h2]
  | slice =>
    unfold compile Spec.Accepted
    dsimp only
    constructor
    · rintro ⟨z, hz⟩
      cases hp : positional es with
      | none => rw [hp] at hz; cases hz
      | some zs =>
        rw [hp, Option.bind_some] at hz
        unfold zig at hz
        dsimp only at hz
        cases hvs : values zs with
        | none => rw [hvs] at hz; cases hz
        | some vs =>
          have := (positional_values es vs).1 (by rw [hp, Option.bind_some, hvs])
          subst this
          simp
    · intro h1
      obtain ⟨vs, rfl⟩ := all_values es h1
      have := (positional_values (K := K) _ vs).2 rfl
      cases hp : positional (vs.map (Elem.value (K := K))) with
      | none => rw [hp] at this; cases this
      | some zs =>
        rw [hp, Option.bind_some] at this
        simp [zig, this]
  | struct fields => exact struct_value L fields es hv.1 hv.2
  | smap =>
    unfold compile Spec.Accepted
    dsimp only
    constructor
    · rintro ⟨z, hz⟩
      cases hp : mapElems es with
      | none => rw [hp] at hz; cases hz
      | some zs =>
        rw [hp, Option.bind_some] at hz
        unfold zig at hz
        dsimp only at hz
        cases hvs : pairsOf zs with
        | none => rw [hvs] at hz; cases hz
        | some ps =>
          have := (mapElems_pairs es ps).1 (by rw [hp, Option.bind_some, hvs])
          subst this
          intro e he
          obtain ⟨p, _, rfl⟩ := List.mem_map.1 he
          exact ⟨_, _, rfl⟩
    · intro h1
      obtain ⟨ps, rfl⟩ := all_keyed es h1
      have := (mapElems_pairs _ ps).2 rfl
      cases hp : mapElems (ps.map fun p => Elem.keyed p.1 p.2) with
      | none => rw [hp] at this; cases this
      | some zs =>
        rw [hp, Option.bind_some] at this
        simp [zig, this]
  | map =>
    simp only [Spec.Accepted, iff_false]
    rintro ⟨z, hz⟩
    cases hc : compile (.map : Ty K) es with
    | none => rw [hc] at hz; cases hz
    | some zs => rw [hc, Option.bind_some] at hz; cases hz

theorem find_zip : ∀ (fields : List K) (vs : List V), fields.Nodup → fields.length = vs.length → ∀ f ∈ fields,
    ∃ v, (fields.zip (vs.map (Elem.value (K := K)))).find? (fun p => p.1 = f) = some (f, .value v) ∧
      ∀ w, (f, w) ∈ fields.zip vs ↔ w = v
  | [], _, _, _, _, h => by simp at h
  | a :: fields, [], _, hl, _, _ => by simp at hl
  | a :: fields, v :: vs, hn, hl, f, hf => by
    simp only [List.nodup_cons] at hn
    have hz : ∀ x w, (x, w) ∈ fields.zip vs → x ∈ fields := fun x w h => (List.of_mem_zip h).1
    by_cases ha : a = f
    · subst ha
      refine ⟨v, by simp, fun w => ?_⟩
      simp only [List.zip_cons_cons, List.mem_cons, Prod.mk.injEq, true_and]
      constructor
      · rintro (h | h)
        · exact h
        · exact absurd (hz _ _ h) hn.1
      · exact Or.inl
    · obtain ⟨u, h1, h2⟩ := find_zip fields vs hn.2 (by simpa using hl) f (by
        rcases List.mem_cons.1 hf with h | h
        · exact absurd h.symm ha
        · exact h)
      refine ⟨u, by simp only [List.map_cons, List.zip_cons_cons]; rw [List.find?_cons_of_neg (by simpa using ha)]; exact h1, fun w => ?_⟩
      rw [← h2 w]
      simp [Ne.symm ha]

theorem field_values (L : Spec.Lits K V) (fields : List K) (vs : List V) (hn : fields.Nodup) (hl : fields.length = vs.length) :
    ∀ f ∈ fields, ∀ v, (f, v) ∈ fields.zip vs ↔ v = Spec.field L fields (vs.map Elem.value) f := by
  intro f hf v
  obtain ⟨u, h1, h2⟩ := find_zip fields vs hn hl f hf
  rw [h2 v]
  have h0 : (vs.map (Elem.value (K := K))).findSome? (Spec.keyed? f) = none := by
    rw [List.findSome?_eq_none_iff]
    intro e he
    obtain ⟨w, _, rfl⟩ := List.mem_map.1 he
    rfl
  unfold Spec.field
  rw [h0, h1]

theorem field_keyed (L : Spec.Lits K V) (fields : List K) : ∀ (ps : List (K × V)), (ps.map Prod.fst).Nodup →
    ∀ f v, (f, v) ∈ ps → v = Spec.field L fields (ps.map fun p => Elem.keyed p.1 p.2) f := by
  intro ps hn f v h
  have h0 : (ps.map fun p => Elem.keyed p.1 p.2).findSome? (Spec.keyed? f) = some v := by
    clear L fields
    induction ps with
    | nil => cases h
    | cons p ps ih =>
      simp only [List.map_cons, List.nodup_cons] at hn
      simp only [List.map_cons, List.findSome?_cons, Spec.keyed?]
      rcases List.mem_cons.1 h with hp | hp
      · subst hp
        simp
      · have : p.1 ≠ f := fun he => hn.1 (he ▸ List.mem_map_of_mem (f := Prod.fst) hp)
        rw [if_neg this]
        exact ih hn.2 hp
  unfold Spec.field
  rw [h0]

/-- **C201** (partial): a literal that is accepted has the value Go gives it. -/
theorem literal_partial (L : Spec.Lits K V) (t : Ty K) (es : List (Elem K V)) (hv : Spec.Valid t es) (z : ZVal K V)
    (hz : (compile t es).bind (zig t) = some z) : Spec.Same L t es z := by
  have ha := (accepted_iff L t es hv).1 ⟨z, hz⟩
  cases t with
  | array n =>
    obtain ⟨vs, rfl⟩ := all_values es ha.1
    have := (positional_values (K := K) _ vs).2 rfl
    unfold compile at hz
    dsimp only at hz
    cases hp : positional (vs.map (Elem.value (K := K))) with
    | none => rw [hp] at this; cases this
    | some zs =>
      rw [hp, Option.bind_some] at this hz
      have hl : vs.length = n := by simpa using ha.2
      simp only [zig, this, Option.bind_some, if_pos hl, Option.some.injEq] at hz
      subst hz
      show vs = Spec.list L n _
      rw [← hl, list_values]
  | slice =>
    obtain ⟨vs, rfl⟩ := all_values es ha
    have := (positional_values (K := K) _ vs).2 rfl
    unfold compile at hz
    dsimp only at hz
    cases hp : positional (vs.map (Elem.value (K := K))) with
    | none => rw [hp] at this; cases this
    | some zs =>
      rw [hp, Option.bind_some] at this hz
      simp only [zig, this, Option.map_some, Option.some.injEq] at hz
      subst hz
      show vs = Spec.list L _ _
      rw [size_values, list_values]
  | struct fields =>
    obtain ⟨hn, hs⟩ := hv
    obtain ⟨hne, hlen⟩ := ha
    unfold compile at hz
    dsimp only at hz
    rcases hs with ⟨hp, _⟩ | ⟨hk, _⟩
    · obtain ⟨vs, rfl⟩ := all_values es (fun e he => by
        obtain ⟨v, h | h⟩ := hp e he
        · exact ⟨v, h⟩
        · exact absurd h (hne e he))
      simp only [List.length_map] at hlen
      have := struct_values fields vs 0 (by omega)
      cases hc : structElems fields 0 (vs.map Elem.value) with
      | none => rw [hc] at this; cases this
      | some zs =>
        rw [hc] at this hz
        simp only [Option.bind_some, zig, List.drop_zero] at this hz
        rw [this, Option.bind_some] at hz
        split at hz
        · simp only [Option.some.injEq] at hz
          subst hz
          exact field_values L fields vs hn hlen.symm
        · cases hz
    · obtain ⟨ps, rfl, h2⟩ := struct_keyed fields es 0 hk
      cases hc : structElems fields 0 (ps.map fun p => Elem.keyed p.1 p.2) with
      | none => rw [hc] at h2; cases h2
      | some zs =>
        rw [hc] at hz h2
        simp only [Option.bind_some, zig] at hz h2
        rw [h2, Option.bind_some] at hz
        split at hz
        · rename_i hh
          simp only [Option.some.injEq] at hz
          subst hz
          intro f hf v
          refine ⟨field_keyed L fields ps hh.1 f v, fun h => ?_⟩
          obtain ⟨p, hp, hpf⟩ := List.mem_map.1 (hh.2.1 f hf)
          have : p = (f, p.2) := by rw [← hpf]
          rw [this] at hp
          rw [h, ← field_keyed L fields ps hh.1 f p.2 hp]
          exact hp
        · cases hz
  | smap =>
    obtain ⟨ps, rfl⟩ := all_keyed es ha
    have := (mapElems_pairs _ ps).2 rfl
    unfold compile at hz
    dsimp only at hz
    cases hp : mapElems (ps.map fun p => Elem.keyed p.1 p.2) with
    | none => rw [hp] at this; cases this
    | some zs =>
      rw [hp, Option.bind_some] at this hz
      simp only [zig, this, Option.map_some, Option.some.injEq] at hz
      subst hz
      exact (literal_spec ps).2
  | map => exact ha.elim

end

/-! ## What is not accepted, and cases -/

/-- What a user relies on: a literal that Go accepts compiles and has Go's value. -/
def Spec.Literals : Prop := ∀ (L : Spec.Lits Nat Nat) (t : Ty Nat) (es : List (Elem Nat Nat)), Spec.Valid t es →
  ∃ z, (compile t es).bind (zig t) = some z ∧ Spec.Same L t es z

/-- `struct{a, b}{b: 1, a: 2}`. -/
example : (compile (.struct [0, 1]) [.keyed 1 1, .keyed 0 2]).bind (zig (.struct [0, 1])) = some (.fields [(1, 1), (0, 2)]) ∧
    Spec.Valid (.struct [0, 1]) [.keyed 1 1, .keyed 0 2] ∧ Spec.Same ⟨0, id, 0⟩ (.struct [0, 1]) [.keyed 1 1, .keyed 0 2] (.fields [(1, 1), (0, 2)]) := by
  have hv : Spec.Valid (V := Nat) (.struct [0, 1]) [.keyed 1 1, .keyed 0 2] := by
    refine ⟨by decide, Or.inr ⟨?_, by decide⟩⟩
    intro e he
    simp only [List.mem_cons, List.not_mem_nil, or_false] at he
    rcases he with rfl | rfl
    · exact ⟨1, 1, rfl, by decide⟩
    · exact ⟨0, 2, rfl, by decide⟩
  have hz : (compile (.struct [0, 1]) [.keyed 1 1, .keyed 0 2]).bind (zig (.struct [0, 1])) = some (.fields [(1, 1), (0, 2)]) := by decide
  exact ⟨hz, hv, literal_partial _ _ _ hv _ hz⟩

/-- `map[string]int{"a": 1, "b": 2}`, `[3]int{7, 8, 9}`. -/
example : (compile (.smap : Ty Nat) [.keyed 0 1, .keyed 1 2]).bind (zig .smap) = some (.entries [(0, 1), (1, 2)]) ∧
    (compile (.array 3 : Ty Nat) [.value 7, .value 8, .value 9]).bind (zig (.array 3)) = some (.list [7, 8, 9]) := by decide

/-- **C201** (refuted): `[3]int{1}`, `[]int{2: 1}`, `[][]int{{1}}`, `struct{a, b}{b: 1}`, `struct{a}{}`, and `map[int]int{}` are not accepted. -/
theorem literals_refused : ∀ te ∈ ([(.array 3, [.value 1]), (.slice, [.keyed 2 1]), (.slice, [.elided]), (.struct [0, 1], [.keyed 1 1]), (.struct [0], []),
    (.map, [])] : List (Ty Nat × List (Elem Nat Nat))), Spec.Valid te.1 te.2 ∧ (compile te.1 te.2).bind (zig te.1) = none := by
  intro te h
  simp only [List.mem_cons, List.not_mem_nil, or_false] at h
  rcases h with rfl | rfl | rfl | rfl | rfl | rfl
  · exact ⟨trivial, by decide⟩
  · exact ⟨trivial, by decide⟩
  · exact ⟨trivial, by decide⟩
  · refine ⟨⟨by decide, Or.inr ⟨?_, by decide⟩⟩, by decide⟩
    intro e he
    rw [List.mem_singleton.1 he]
    exact ⟨1, 1, rfl, by decide⟩
  · exact ⟨⟨by decide, Or.inl ⟨by simp, Or.inl rfl⟩⟩, by decide⟩
  · exact ⟨trivial, by decide⟩

/-- **C201** (refuted). -/
theorem literals_fails : ¬ Spec.Literals := by
  intro h
  obtain ⟨z, hz, _⟩ := h ⟨0, id, 0⟩ (.array 3) [.value 1] trivial
  have := (literals_refused (.array 3, [.value 1]) (by simp)).2
  rw [this] at hz
  cases hz

end Verif.Zgo.Comp
