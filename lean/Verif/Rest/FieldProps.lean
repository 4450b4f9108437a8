import Verif.Rest.FieldModel
/-!
# C237: parameters are stored in the fields they name, and nowhere else
-/
namespace Verif.Rest.Field

/-! ## Specification -/

/-- `v` has `y` at the index, through pointers to structs as Go selects fields. -/
inductive At : Val → List Nat → Val → Prop
  | here (v : Val) : At v [] v
  | field (vs : List Val) (x : Nat) (w : Val) (p : List Nat) (y : Val) : vs[x]? = some w → At w p y → At (.struct vs) (x :: p) y
  | deref (vs : List Val) (x : Nat) (w : Val) (p : List Nat) (y : Val) : vs[x]? = some w → At w p y →
      At (.ptr (.struct vs)) (x :: p) y

/-- The index leads from a type to another, by fields of structs and of pointers to structs. -/
inductive Leads : Ty → List Nat → Ty → Prop
  | here (t : Ty) : Leads t [] t
  | field (ts : List Ty) (x : Nat) (t : Ty) (p : List Nat) (u : Ty) : ts[x]? = some t → Leads t p u → Leads (.struct ts) (x :: p) u
  | deref (ts : List Ty) (x : Nat) (t : Ty) (p : List Nat) (u : Ty) : ts[x]? = some t → Leads t p u →
      Leads (.ptr (.struct ts)) (x :: p) u

/-- The value is one of the type. -/
inductive Fits : Ty → Val → Prop
  | leaf (n : Nat) : Fits .leaf (.leaf n)
  | nil (t : Ty) : Fits (.ptr t) .nil
  | ptr (t : Ty) (v : Val) : Fits t v → Fits (.ptr t) (.ptr v)
  | struct (ts : List Ty) (vs : List Val) : ts.length = vs.length →
      (∀ (i : Nat) (t : Ty) (v : Val), ts[i]? = some t → vs[i]? = some v → Fits t v) → Fits (.struct ts) (.struct vs)

/-- Two indexes part: they are the same up to somewhere, and then differ. -/
inductive Part : List Nat → List Nat → Prop
  | head (a b : Nat) (p q : List Nat) : a ≠ b → Part (a :: p) (b :: q)
  | tail (a : Nat) (p q : List Nat) : Part p q → Part (a :: p) (a :: q)

/-! ## Lemmas -/

theorem zeros_get : ∀ (ts : List Ty) (i : Nat) (t : Ty), ts[i]? = some t → (zeros ts)[i]? = some (zero t)
  | [], i, t, h => by simp at h
  | u :: ts, 0, t, h => by simp at h; subst h; simp [zeros]
  | u :: ts, i + 1, t, h => by simp at h; simpa [zeros] using zeros_get ts i t h

theorem zeros_length : ∀ ts : List Ty, (zeros ts).length = ts.length
  | [] => by simp [zeros]
  | t :: ts => by simp [zeros, zeros_length ts]

mutual
theorem zero_fits : ∀ t : Ty, Fits t (zero t)
  | .leaf => by rw [zero]; exact .leaf 0
  | .ptr t => by rw [zero]; exact .nil t
  | .struct ts => by
    rw [zero]
    refine .struct _ _ (zeros_length ts).symm fun i t v ht hv => ?_
    rw [zeros_get ts i t ht] at hv
    injection hv with hv; subst hv
    exact zeros_fit ts i t ht
theorem zeros_fit : ∀ (ts : List Ty) (i : Nat) (t : Ty), ts[i]? = some t → Fits t (zero t)
  | [], i, t, h => by simp at h
  | u :: ts, 0, t, h => by simp at h; subst h; exact zero_fits u
  | u :: ts, i + 1, t, h => by simp at h; exact zeros_fit ts i t h
end

theorem set_get {vs : List Val} {x : Nat} {w w' : Val} (h : vs[x]? = some w) : (vs.set x w')[x]? = some w' := by
  have hl := (List.getElem?_eq_some_iff.mp h).1
  simp [List.getElem?_set, hl]

theorem set_other {vs : List Val} {x y : Nat} {w' : Val} (h : x ≠ y) : (vs.set x w')[y]? = vs[y]? := by
  simp [List.getElem?_set, h]

theorem fits_get {ts : List Ty} {vs : List Val} (h : Fits (.struct ts) (.struct vs)) {x : Nat} {t : Ty} (ht : ts[x]? = some t) :
    ∃ w, vs[x]? = some w ∧ Fits t w := by
  cases h with
  | struct _ _ hl hf =>
    have hx : x < vs.length := hl ▸ (List.getElem?_eq_some_iff.mp ht).1
    exact ⟨vs[x], List.getElem?_eq_getElem hx, hf x t _ ht (List.getElem?_eq_getElem hx)⟩

theorem fits_set {ts : List Ty} {vs : List Val} (h : Fits (.struct ts) (.struct vs)) {x : Nat} {t : Ty} {w : Val}
    (ht : ts[x]? = some t) (hw : Fits t w) : Fits (.struct ts) (.struct (vs.set x w)) := by
  cases h with
  | struct _ _ hl hf =>
    refine .struct _ _ (by simpa using hl) fun i u v hu hv => ?_
    by_cases e : x = i
    · subst e
      rw [ht] at hu; injection hu with hu; subst hu
      have hx : x < vs.length := hl ▸ (List.getElem?_eq_some_iff.mp ht).1
      simp [List.getElem?_set, hx] at hv
      subst hv; exact hw
    · rw [set_other e] at hv
      exact hf i u v hu hv

/-- How a step goes: from a struct, a pointer to one, or a nil pointer, which is made to point at a new one. -/
theorem step {f : Val → Val} {first : Bool} {t : Ty} {v : Val} {x : Nat} {index : List Nat} {r : Val × Val}
    (h : fieldByIndex f first t v (x :: index) = some r) :
    ∃ ts vs u w r', ts[x]? = some u ∧ vs[x]? = some w ∧ fieldByIndex f false u w index = some r' ∧ r.2 = r'.2 ∧
      ((t = .struct ts ∧ v = .struct vs ∧ r.1 = .struct (vs.set x r'.1)) ∨
       (first = false ∧ t = .ptr (.struct ts) ∧ v = .ptr (.struct vs) ∧ r.1 = .ptr (.struct (vs.set x r'.1))) ∨
       (first = false ∧ t = .ptr (.struct ts) ∧ v = .nil ∧ vs = zeros ts ∧ r.1 = .ptr (.struct (vs.set x r'.1)))) := by
  unfold fieldByIndex at h
  split at h
  · next e => cases e
  · next ts vs x' index' e =>
    injection e with e1 e2; subst e1 e2
    split at h
    · next u w hu hw =>
      obtain ⟨r', hr, he⟩ := Option.map_eq_some_iff.mp h
      subst he
      exact ⟨ts, vs, u, w, r', hu, hw, hr, rfl, .inl ⟨rfl, rfl, rfl⟩⟩
    · cases h
  · next ts vs x' index' e =>
    injection e with e1 e2; subst e1 e2
    split at h
    · next u w hu hw =>
      obtain ⟨r', hr, he⟩ := Option.map_eq_some_iff.mp h
      subst he
      exact ⟨ts, vs, u, w, r', hu, hw, hr, rfl, .inr (.inl ⟨rfl, rfl, rfl, rfl⟩)⟩
    · cases h
  · next ts x' index' e =>
    injection e with e1 e2; subst e1 e2
    split at h
    · next u w hu hw =>
      obtain ⟨r', hr, he⟩ := Option.map_eq_some_iff.mp h
      subst he
      exact ⟨ts, zeros ts, u, w, r', hu, hw, hr, rfl, .inr (.inr ⟨rfl, rfl, rfl, rfl, rfl⟩)⟩
    · cases h
  · cases h

/-! ## Theorems -/

/-- **C237.** The field the index names has what was stored. -/
theorem stored (f : Val → Val) : ∀ (index : List Nat) (first : Bool) (t : Ty) (v : Val) (r : Val × Val),
    fieldByIndex f first t v index = some r → At r.1 index (f r.2)
  | [], first, t, v, r, h => by
    unfold fieldByIndex at h
    injection h with h; subst h; exact .here _
  | x :: index, first, t, v, r, h => by
    obtain ⟨ts, vs, u, w, r', hu, hw, hr, e2, hc⟩ := step h
    have ih := stored f index false u w r' hr
    rw [e2]
    rcases hc with ⟨_, _, e⟩ | ⟨_, _, _, e⟩ | ⟨_, _, _, _, e⟩
    · rw [e]; exact .field _ _ _ _ _ (set_get hw) ih
    · rw [e]; exact .deref _ _ _ _ _ (set_get hw) ih
    · rw [e]; exact .deref _ _ _ _ _ (set_get hw) ih

/-- **C237.** What is found is what was there. -/
theorem found_is (f : Val → Val) : ∀ (index : List Nat) (first : Bool) (t : Ty) (v : Val) (r : Val × Val) (z : Val),
    fieldByIndex f first t v index = some r → At v index z → r.2 = z
  | [], first, t, v, r, z, h, ha => by
    unfold fieldByIndex at h
    injection h with h; subst h; cases ha; rfl
  | x :: index, first, t, v, r, z, h, ha => by
    obtain ⟨ts, vs, u, w, r', hu, hw, hr, e2, hc⟩ := step h
    rw [e2]
    rcases hc with ⟨_, ev, e⟩ | ⟨_, _, ev, e⟩ | ⟨_, _, ev, _, e⟩
    · subst ev
      cases ha with
      | field _ _ w' _ _ hw' ha =>
        rw [hw] at hw'; injection hw' with hw'; subst hw'
        exact found_is f index false u w r' z hr ha
    · subst ev
      cases ha with
      | deref _ _ w' _ _ hw' ha =>
        rw [hw] at hw'; injection hw' with hw'; subst hw'
        exact found_is f index false u w r' z hr ha
    · subst ev; cases ha

/-- **C237.** All that is at an index that parts from it stays as it is. -/
theorem others_kept (f : Val → Val) : ∀ (index : List Nat) (first : Bool) (t : Ty) (v : Val) (r : Val × Val) (q : List Nat)
    (z : Val), fieldByIndex f first t v index = some r → Part index q → At v q z → At r.1 q z
  | [], first, t, v, r, q, z, h, hp, ha => by cases hp
  | x :: index, first, t, v, r, q, z, h, hp, ha => by
    obtain ⟨ts, vs, u, w, r', hu, hw, hr, e2, hc⟩ := step h
    have key : ∀ b p y, q = b :: p → vs[b]? = some y → At y p z → ∃ y', (vs.set x r'.1)[b]? = some y' ∧ At y' p z := by
      intro b p y eq hy hat
      subst eq
      cases hp with
      | head _ _ _ _ hne => exact ⟨y, by rw [set_other hne]; exact hy, hat⟩
      | tail _ _ _ hp =>
        rw [hw] at hy; injection hy with hy; subst hy
        exact ⟨r'.1, set_get hw, others_kept f index false u w r' p z hr hp hat⟩
    rcases hc with ⟨_, ev, e⟩ | ⟨_, _, ev, e⟩ | ⟨_, _, ev, _, e⟩
    · subst ev
      rw [e]
      cases ha with
      | here => cases hp
      | field _ b y p _ hy hat =>
        obtain ⟨y', h1, h2⟩ := key b p y rfl hy hat
        exact .field _ _ _ _ _ h1 h2
    · subst ev
      rw [e]
      cases ha with
      | here => cases hp
      | deref _ b y p _ hy hat =>
        obtain ⟨y', h1, h2⟩ := key b p y rfl hy hat
        exact .deref _ _ _ _ _ h1 h2
    · subst ev
      cases ha with
      | here => cases hp

/-- **C237.** Looking at a field that is there changes nothing. -/
theorem look (index : List Nat) : ∀ (first : Bool) (t : Ty) (v : Val) (r : Val × Val) (z : Val),
    fieldByIndex id first t v index = some r → At v index z → r.1 = v := by
  induction index with
  | nil =>
    intro first t v r z h _
    unfold fieldByIndex at h
    injection h with h; subst h; rfl
  | cons x index ih =>
    intro first t v r z h ha
    obtain ⟨ts, vs, u, w, r', hu, hw, hr, e2, hc⟩ := step h
    have same : ∀ w' z', vs[x]? = some w' → At w' index z' → vs.set x r'.1 = vs := by
      intro w' z' hw' hat
      rw [hw] at hw'; injection hw' with hw'; subst hw'
      rw [ih false u w r' z' hr hat]
      obtain ⟨hl, hx⟩ := List.getElem?_eq_some_iff.mp hw
      subst hx; simp
    rcases hc with ⟨_, ev, e⟩ | ⟨_, _, ev, e⟩ | ⟨_, _, ev, _, e⟩
    · subst ev
      cases ha with
      | field _ _ w' _ _ hw' ha => rw [e, same w' z hw' ha]
    · subst ev
      cases ha with
      | deref _ _ w' _ _ hw' ha => rw [e, same w' z hw' ha]
    · subst ev; cases ha

/-- A field of a zero value is a zero value. -/
theorem zero_at : ∀ (index : List Nat) (t u : Ty) (z : Val), Leads t index u → At (zero t) index z → z = zero u
  | [], t, u, z, hl, ha => by
    cases hl
    generalize zero t = v at ha ⊢
    cases ha; rfl
  | x :: index, t, u, z, hl, ha => by
    cases hl with
    | field ts _ s _ _ hs hl =>
      rw [zero] at ha
      cases ha with
      | field _ _ w _ _ hw ha =>
        rw [zeros_get ts x s hs] at hw
        injection hw with hw; subst hw
        exact zero_at index s u z hl ha
    | deref ts _ s _ _ hs hl => rw [zero] at ha; cases ha

/-- **C237.** An index that the type has never panics, on whatever value of the type and through whatever nil pointers, as
long as the value itself is no pointer (or one step was made already); the value stays one of its type; and what is behind a
pointer that was nil is found as the zero value. -/
theorem total (f : Val → Val) (u : Ty) (hf : ∀ y, Fits u y → Fits u (f y)) : ∀ (index : List Nat) (first : Bool) (t : Ty) (v : Val),
    Fits t v → Leads t index u → (first = true → ∀ s, t ≠ .ptr s) →
    ∃ r, fieldByIndex f first t v index = some r ∧ Fits t r.1 ∧ Fits u r.2 ∧ ((¬ ∃ z, At v index z) → r.2 = zero u)
  | [], first, t, v, hv, hl, _ => by
    cases hl with
    | here => exact ⟨(f v, v), by rw [fieldByIndex.eq_def], hf v hv, hv, fun h => absurd ⟨v, .here v⟩ h⟩
  | x :: index, first, t, v, hv, hl, hfirst => by
    cases hl with
    | field ts _ s _ _ hs hl =>
      have hv' := hv
      cases hv with
      | struct _ vs hlen hfs =>
        obtain ⟨w, hw, hwf⟩ := fits_get hv' hs
        obtain ⟨r, hr, h1, h2, h3⟩ := total f u hf index false s w hwf hl (fun h => (nomatch h))
        refine ⟨(.struct (vs.set x r.1), r.2), ?_, fits_set hv' hs h1, h2, fun hn => h3 fun ⟨z, hz⟩ => hn ⟨z, .field _ _ _ _ _ hw hz⟩⟩
        rw [fieldByIndex.eq_def]
        simp only [hs, hw, hr, Option.map_some]
    | deref ts _ s _ _ hs hl =>
      cases first with
      | true => exact absurd rfl (hfirst rfl _)
      | false =>
        cases hv with
        | nil =>
          have hz := zero_fits (.struct ts)
          rw [zero] at hz
          obtain ⟨r, hr, h1, h2, h3⟩ := total f u hf index false s (zero s) (zero_fits s) hl (fun h => (nomatch h))
          refine ⟨(.ptr (.struct ((zeros ts).set x r.1)), r.2), ?_, .ptr _ _ (fits_set hz hs h1), h2, fun _ => ?_⟩
          · rw [fieldByIndex.eq_def]
            simp only [hs, zeros_get ts x s hs, hr, Option.map_some]
          · by_cases hz' : ∃ z, At (zero s) index z
            · obtain ⟨z, hz'⟩ := hz'
              rw [found_is f index false s (zero s) r z hr hz']
              exact zero_at index s u z hl hz'
            · exact h3 hz'
        | ptr _ v hv =>
          have hv' := hv
          cases hv with
          | struct _ vs hlen hfs =>
            obtain ⟨w, hw, hwf⟩ := fits_get hv' hs
            obtain ⟨r, hr, h1, h2, h3⟩ := total f u hf index false s w hwf hl (fun h => (nomatch h))
            refine ⟨(.ptr (.struct (vs.set x r.1)), r.2), ?_, .ptr _ _ (fits_set hv' hs h1), h2,
              fun hn => h3 fun ⟨z, hz⟩ => hn ⟨z, .deref _ _ _ _ _ hw hz⟩⟩
            rw [fieldByIndex.eq_def]
            simp only [hs, hw, hr, Option.map_some]

/-- A struct that points at another. -/
def exTy : Ty := .struct [.leaf, .ptr (.struct [.leaf, .leaf])]

example : Leads exTy [1, 1] .leaf ∧ Fits exTy (zero exTy) ∧
    fieldByIndex (fun _ => .leaf 7) true exTy (zero exTy) [1, 1] =
      some (.struct [.leaf 0, .ptr (.struct [.leaf 0, .leaf 7])], .leaf 0) ∧
    (¬ ∃ z, At (zero exTy) [1, 1] z) := by
  refine ⟨.field _ _ _ _ _ rfl (.deref _ _ _ _ _ rfl (.here _)), zero_fits _, ?_, ?_⟩
  · simp [fieldByIndex, exTy, zero, zeros]
  · rintro ⟨z, h⟩
    simp only [exTy, zero, zeros] at h
    cases h with
    | field _ _ w _ _ hw h => simp at hw; subst hw; cases h

/-- **C237.** All the parameters of an argument that is no pointer are stored, each in its field, whatever the order, if no
two of their indexes are the same or one within the other. -/
theorem all_stored_partial (t : Ty) (ht : ∀ s, t ≠ .ptr s) : ∀ (ps : List (List Nat × Nat)) (v : Val), Fits t v →
    (∀ p ∈ ps, Leads t p.1 .leaf) → ps.Pairwise (fun p q => Part q.1 p.1) →
    ∃ v', storeAll t v ps = some v' ∧ Fits t v' ∧ (∀ p ∈ ps, At v' p.1 (.leaf p.2)) ∧
      ∀ q z, (∀ p ∈ ps, Part p.1 q) → At v q z → At v' q z
  | [], v, hv, _, _ => ⟨v, rfl, hv, fun _ h => (nomatch h), fun _ _ _ h => h⟩
  | p :: ps, v, hv, hl, hp => by
    obtain ⟨hp1, hp2⟩ := List.pairwise_cons.mp hp
    obtain ⟨r, hr, h1, _, _⟩ := total (fun _ => .leaf p.2) .leaf (fun _ _ => .leaf _) p.1 true t v hv (hl p (by simp))
      (fun _ => ht)
    obtain ⟨v', hv', hf, ha, hq⟩ := all_stored_partial t ht ps r.1 h1 (fun q hq => hl q (by simp [hq])) hp2
    have hn : nested (fun _ => .leaf p.2) t v p.1 = some r := by
      cases t with
      | ptr s => exact absurd rfl (ht s)
      | leaf => exact hr
      | struct ts => exact hr
    refine ⟨v', ?_, hf, ?_, ?_⟩
    · unfold storeAll
      rw [hn]
      exact hv'
    · intro q hm
      rcases List.mem_cons.mp hm with rfl | hm
      · exact hq _ _ (fun q' hq' => hp1 q' hq') (stored _ _ _ _ _ _ hr)
      · exact ha q hm
    · intro q z hpq hat
      exact hq q z (fun p' hp' => hpq p' (by simp [hp'])) (others_kept _ _ _ _ _ _ _ _ hr (hpq p (by simp)) hat)

example : ∃ v', storeAll exTy (zero exTy) [([1, 1], 7), ([0], 3)] = some v' ∧ At v' [1, 1] (.leaf 7) ∧ At v' [0] (.leaf 3) := by
  obtain ⟨v', h1, _, h2, _⟩ := all_stored_partial exTy (fun s => by unfold exTy; exact fun h => (nomatch h))
    [([1, 1], 7), ([0], 3)] (zero exTy) (zero_fits _)
    (by
      intro p hp
      simp at hp
      rcases hp with rfl | rfl
      · exact .field _ _ _ _ _ rfl (.deref _ _ _ _ _ rfl (.here _))
      · exact .field _ _ _ _ _ rfl (.here _))
    (by simp; exact .head _ _ _ _ (by decide))
  exact ⟨v', h1, h2 ([1, 1], 7) (by simp), h2 ([0], 3) (by simp)⟩

/-- The claim in full: whatever the type of the argument, its parameters are stored. -/
def Claim : Prop :=
  ∀ (t : Ty) (ps : List (List Nat × Nat)), (∀ p ∈ ps, Leads t p.1 .leaf) → ps.Pairwise (fun p q => Part q.1 p.1) →
    ∃ v', storeAll t (zero t) ps = some v' ∧ ∀ p ∈ ps, At v' p.1 (.leaf p.2)

/-- **C237 fails.** The handler of a function that takes a pointer to a struct panics on any parameter in its fields. -/
theorem pointer_argument_fails : ¬ Claim ∧
    ∀ (t : Ty) (p : List Nat × Nat) (ps : List (List Nat × Nat)), storeAll (.ptr t) (zero (.ptr t)) (p :: ps) = none := by
  have key : ∀ (t : Ty) (p : List Nat × Nat) (ps : List (List Nat × Nat)),
      storeAll (.ptr t) (zero (.ptr t)) (p :: ps) = none := by
    intro t p ps
    rw [zero]; rfl
  refine ⟨fun h => ?_, key⟩
  obtain ⟨v', hv, _⟩ := h (.ptr (.struct [.leaf])) [([0], 1)]
    (by intro p hp; simp at hp; subst hp; exact .deref _ _ _ _ _ rfl (.here _)) (by simp)
  rw [key] at hv
  cases hv

/-- **C237 fails.** A pointer to a pointer is not followed. -/
theorem pointer_pointer_fails (f : Val → Val) (first : Bool) (t : Ty) (v : Val) (x : Nat) (index : List Nat) :
    fieldByIndex f first (.ptr (.ptr t)) v (x :: index) = none := by
  cases h : fieldByIndex f first (.ptr (.ptr t)) v (x :: index) with
  | none => rfl
  | some r =>
    obtain ⟨ts, _, _, _, _, _, _, _, _, hc⟩ := step h
    rcases hc with ⟨e, _⟩ | ⟨_, e, _⟩ | ⟨_, e, _⟩ <;> exact nomatch e

/-! ## The client -/

/-- A value behind some pointers. -/
def behind (n : Nat) (v : Val) : Val := n.rec v fun _ w => .ptr w

/-- The type of it. -/
def pointers (n : Nat) (t : Ty) : Ty := n.rec t fun _ u => .ptr u

theorem fetch_at : ∀ (index : List Nat) (addr first : Bool) (t u : Ty) (v y : Val), Leads t index u → At v index y → Fits t v →
    (first = true → ∀ s, t ≠ .ptr s) → fetch addr first t v index = some y
  | [], addr, first, t, u, v, y, hl, ha, hv, _ => by cases ha; rw [fetch.eq_def]
  | x :: index, addr, first, t, u, v, y, hl, ha, hv, hfirst => by
    cases hl with
    | field ts _ s _ _ hs hl =>
      cases ha with
      | field vs _ w _ _ hw ha =>
        obtain ⟨w', hw', hf⟩ := fits_get hv hs
        rw [hw] at hw'; injection hw' with hw'; subst hw'
        rw [fetch.eq_def]
        simp only [hs, hw]
        exact fetch_at index addr false s u w y hl ha hf (fun h => (nomatch h))
      | deref => cases hv
    | deref ts _ s _ _ hs hl =>
      cases first with
      | true => exact absurd rfl (hfirst rfl _)
      | false =>
        cases ha with
        | field => cases hv
        | deref vs _ w _ _ hw ha =>
          cases hv with
          | ptr _ _ hv =>
            obtain ⟨w', hw', hf⟩ := fits_get hv hs
            rw [hw] at hw'; injection hw' with hw'; subst hw'
            rw [fetch.eq_def]
            simp only [hs, hw]
            exact fetch_at index true false s u w y hl ha hf (fun h => (nomatch h))

/-- **C237.** The client reads the field that the index names, if it is there, of an argument behind any number of pointers. -/
theorem client_reads_partial (n : Nat) (t u : Ty) (v y : Val) (index : List Nat) (addr : Bool) (ht : ∀ s, t ≠ .ptr s)
    (hl : Leads t index u) (ha : At v index y) (hv : Fits t v) : deref addr (pointers n t) (behind n v) index = .field y := by
  induction n generalizing addr with
  | zero =>
    have hf := fetch_at index addr true t u v y hl ha hv (fun _ => ht)
    show deref addr t v index = _
    cases t with
    | ptr s => exact absurd rfl (ht s)
    | leaf => rw [deref.eq_def]; dsimp only; rw [hf]
    | struct ts => rw [deref.eq_def]; dsimp only; rw [hf]
  | succ n ih =>
    show deref addr (.ptr (pointers n t)) (.ptr (behind n v)) index = _
    rw [deref.eq_def]
    exact ih true

/-- **C237.** What a handler stored is what a client reads of the same value. -/
theorem client_agrees_partial (t : Ty) (ht : ∀ s, t ≠ .ptr s) (ps : List (List Nat × Nat)) (hl : ∀ p ∈ ps, Leads t p.1 .leaf)
    (hp : ps.Pairwise (fun p q => Part q.1 p.1)) (addr : Bool) :
    ∃ v', storeAll t (zero t) ps = some v' ∧ ∀ p ∈ ps, deref addr t v' p.1 = .field (.leaf p.2) := by
  obtain ⟨v', h1, h2, h3, _⟩ := all_stored_partial t ht ps (zero t) (zero_fits t) hl hp
  exact ⟨v', h1, fun p hm => client_reads_partial 0 t .leaf v' _ p.1 addr ht (hl p hm) (h3 p hm) h2⟩

example : deref false (.ptr exTy) (.ptr (.struct [.leaf 3, .ptr (.struct [.leaf 0, .leaf 7])])) [1, 1] = .field (.leaf 7) := by
  refine client_reads_partial 1 exTy .leaf (.struct [.leaf 3, .ptr (.struct [.leaf 0, .leaf 7])]) _ _ _
    (fun s => by unfold exTy; exact fun h => (nomatch h)) (.field _ _ _ _ _ rfl (.deref _ _ _ _ _ rfl (.here _)))
    (.field _ _ _ _ _ rfl (.deref _ _ _ _ _ rfl (.here _))) ?_
  have h1 : Fits exTy (.struct [.leaf 3, .ptr (.struct [.leaf 0, .leaf 7])]) := by
    refine .struct _ _ rfl fun i t v ht hv => ?_
    match i with
    | 0 => simp at ht hv; subst ht hv; exact .leaf 3
    | 1 =>
      simp at ht hv; subst ht hv
      refine .ptr _ _ (.struct _ _ rfl fun i t v ht hv => ?_)
      match i with
      | 0 => simp at ht hv; subst ht hv; exact .leaf 0
      | 1 => simp at ht hv; subst ht hv; exact .leaf 7
      | n + 2 => simp at ht
    | n + 2 => simp at ht
  exact h1

/-- **C237.** A nil pointer for an argument sends nothing; a nil pointer inside one panics the client, unless the argument
is itself behind a pointer: then the pointer is made, in the caller's value. -/
theorem client_nil_fails (addr : Bool) (t : Ty) (index : List Nat) :
    deref addr (.ptr t) .nil index = .absent ∧ deref false exTy (zero exTy) [1, 1] = .panic ∧
    deref false (.ptr exTy) (.ptr (zero exTy)) [1, 1] = .field (.leaf 0) ∧
    fieldByIndex id true exTy (zero exTy) [1, 1] = some (.struct [.leaf 0, .ptr (.struct [.leaf 0, .leaf 0])], .leaf 0) ∧
    zero exTy = .struct [.leaf 0, .nil] := by
  refine ⟨by rw [deref.eq_def], ?_, ?_, ?_, ?_⟩
  · simp [deref, fetch, exTy, zero, zeros]
  · simp [deref, fetch, exTy, zero, zeros]
  · simp [fieldByIndex, exTy, zero, zeros]
  · simp [exTy, zero, zeros]

end Verif.Rest.Field
