import Verif.Sql.Spec

namespace Verif.Sql

variable {K V : Type}

/-! ### Expressions -/

theorem matchAll_value (bs : List Bool) : matchAll (bs.map (Expr.value (K := K) (V := V))) = true ↔ ∀ b ∈ bs, b = true := by
  induction bs with
  | nil => simp [matchAll]
  | cons b bs ih => cases b <;> simp [matchAll, ih]

/-- Every expression built for a condition is a plain value. -/
def Plain (es : List (Expr K V)) (bs : List Bool) : Prop := es = bs.map .value

theorem casesLoop_plain (all : List (Expr K V)) (bs : List Bool) : casesLoop all (bs.map .value) = .value (bs.any id) := by
  induction bs with
  | nil => rfl
  | cons b bs ih => cases b <;> simp [casesLoop, ih]

theorem mergeLoop_plain (all : List (Expr K V)) (bs : List Bool) : mergeLoop all (bs.map .value) = .value (bs.all id) := by
  induction bs with
  | nil => rfl
  | cons b bs ih => cases b <;> simp [mergeLoop, ih]

mutual
theorem cond_value (k : K) (v : V) : ∀ c : Cond K V, c.NonEmpty → ∃ b, c.expr k v = .value b ∧ (b = true ↔ c.Holds k v)
  | .atom p, _ => ⟨p k v, rfl, Iff.rfl⟩
  | .min col x, _ => ⟨_, rfl, by simp [Cond.Holds]⟩
  | .max col x, _ => ⟨_, rfl, by simp [Cond.Holds]⟩
  | .moreThan col x, _ => ⟨_, rfl, by simp [Cond.Holds]⟩
  | .lessThan col x, _ => ⟨_, rfl, by simp [Cond.Holds]⟩
  | .equals col x, _ => ⟨_, rfl, by simp [Cond.Holds]⟩
  | .empty col, _ => ⟨_, rfl, by simp [Cond.Holds]⟩
  | .not c, h => by
    obtain ⟨b, h1, h2⟩ := cond_value k v c (by simpa [Cond.NonEmpty] using h)
    refine ⟨!b, by rw [Cond.expr, h1, avoid], ?_⟩
    rw [Cond.Holds, ← h2]; simp
  | .any cs, h => by
    rw [Cond.NonEmpty] at h
    obtain ⟨bs, h1, h2, _, h4⟩ := conds_value k v cs h.2
    refine ⟨bs.any id, ?_, ?_⟩
    · rw [Cond.expr, h1]
      cases bs with
      | nil => exact absurd (List.length_eq_zero_iff.mp h4.symm) h.1
      | cons b bs => exact casesLoop_plain _ (b :: bs)
    · rw [Cond.Holds, ← h2]; simp
  | .all cs, h => by
    rw [Cond.NonEmpty] at h
    obtain ⟨bs, h1, _, h3, _⟩ := conds_value k v cs h
    refine ⟨bs.all id, ?_, ?_⟩
    · rw [Cond.expr, h1]
      cases bs with
      | nil => rfl
      | cons b bs => exact mergeLoop_plain _ (b :: bs)
    · rw [Cond.Holds, ← h3]; simp
theorem conds_value (k : K) (v : V) : ∀ cs : List (Cond K V), allNonEmpty cs →
    ∃ bs : List Bool, exprs k v cs = bs.map .value ∧ (true ∈ bs ↔ anyHolds k v cs) ∧ ((∀ b ∈ bs, b = true) ↔ allHold k v cs) ∧ bs.length = cs.length
  | [], _ => ⟨[], rfl, by simp [anyHolds], by simp [allHold], rfl⟩
  | c :: cs, h => by
    rw [allNonEmpty] at h
    obtain ⟨b, h1, h2⟩ := cond_value k v c h.1
    obtain ⟨bs, g1, g2, g3, g4⟩ := conds_value k v cs h.2
    refine ⟨b :: bs, by rw [exprs, h1, g1]; rfl, ?_, ?_, by simp [g4]⟩
    · rw [anyHolds, ← h2, ← g2, List.mem_cons]; simp [eq_comm]
    · rw [allHold, ← h2, ← g3]; simp
end

/-! ### The map -/

variable [DecidableEq K]

theorem load_delete (m : List (K × V)) (k k' : K) : load (delete m k) k' = if k' = k then none else load m k' := by
  induction m with
  | nil => simp [delete, load]
  | cons p m ih =>
    obtain ⟨k1, v⟩ := p
    rw [delete]
    by_cases h : k1 = k
    · rw [if_pos h, ih]
      by_cases h' : k' = k
      · simp [h']
      · rw [if_neg h', if_neg h', load, if_neg]
        rw [h]; exact fun e => h' e.symm
    · rw [if_neg h, load, load, ih]
      by_cases h' : k1 = k'
      · subst h'; simp [h]
      · rw [if_neg h', if_neg h']

theorem load_store (m : List (K × V)) (k k' : K) (v : V) : load (store m k v) k' = if k' = k then some v else load m k' := by
  rw [store, load, load_delete]
  by_cases h : k' = k
  · simp [h]
  · rw [if_neg (fun e => h e.symm), if_neg h, if_neg h]

theorem load_store_set (m : List (K × V)) (k : K) (v : V) : load (store m k v) = PMap.set (load m) k (some v) := by
  funext k'; rw [load_store]; rfl

theorem load_delete_set (m : List (K × V)) (k : K) : load (delete m k) = PMap.set (load m) k none := by
  funext k'; rw [load_delete]; rfl

theorem refused_iff (check : Option (V → List Bool)) (v : V) :
    refused (K := K) (check.map fun c v => (c v).map .value) v = true ↔ ¬ Passes check v := by
  cases check with
  | none => simp [refused, Passes]
  | some c => rw [Option.map_some, refused, Passes, ← matchAll_value (K := K) (V := V) (c v)]; simp

theorem op_refines (m : List (K × V)) (o : Op K V) :
    load (onRam m o).1 = (onMap (load m) o).1 ∧ (onRam m o).2 = (onMap (load m) o).2 := by
  cases o with
  | insert k u v =>
    cases u with
    | true => exact ⟨load_store_set m k v, rfl⟩
    | false =>
      rw [onRam, onMap, insert]
      cases h : load m k with
      | some w => simp [h]
      | none => simp [h, load_store_set]
  | lookup k => exact ⟨rfl, rfl⟩
  | delete k check =>
    rw [onRam, onMap, deleteIf]
    cases h : load m k with
    | none => exact ⟨rfl, rfl⟩
    | some v =>
      dsimp only
      by_cases hp : Passes check v
      · have : ¬ refused (K := K) (check.map fun c v => (c v).map .value) v = true := by rw [refused_iff]; simp [hp]
        rw [if_pos hp, if_neg this]
        exact ⟨load_delete_set m k, rfl⟩
      · rw [if_neg hp, if_pos ((refused_iff check v).mpr hp)]
        exact ⟨rfl, rfl⟩
  | mutate k check patch =>
    rw [onRam, onMap, mutate]
    cases h : load m k with
    | none => exact ⟨rfl, rfl⟩
    | some v =>
      dsimp only
      by_cases hp : Passes check v
      · have : ¬ refused (K := K) (check.map fun c v => (c v).map .value) v = true := by rw [refused_iff]; simp [hp]
        rw [if_pos hp, if_neg this]
        exact ⟨load_store_set m k _, rfl⟩
      · rw [if_neg hp, if_pos ((refused_iff check v).mpr hp)]
        exact ⟨rfl, rfl⟩

theorem answers_refine (os : List (Op K V)) : ∀ (m : List (K × V)), answers onRam m os = answers onMap (load m) os := by
  induction os with
  | nil => intro m; rfl
  | cons o os ih =>
    intro m
    obtain ⟨h1, h2⟩ := op_refines m o
    rw [answers, answers, h2, ih, h1]

/-! ### Ranged operations -/

theorem hits_congr {query : K → V → List (Expr K V)} {m m' : List (K × V)} {ks : List K} (h : ∀ k ∈ ks, load m k = load m' k) :
    hits query m ks = hits query m' ks := by
  unfold hits
  refine List.filter_congr ?_
  intro k hk
  rw [h k hk]

/-- What happens to a touched record. -/
def touched (patch : Option (V → V)) (o : Option V) : Option V := match patch with | none => none | some p => o.map p

theorem rangeLoop_spec (query : K → V → List (Expr K V)) (patch : Option (V → V)) (lo hi : Nat) :
    ∀ (ks : List K) (m : List (K × V)) (c : Nat), ks.Nodup → c < hi →
      (rangeLoop query patch lo hi ks m c).2 = ((c + min (hi - c) (hits query m ks).length : Nat) : Int) ∧
      ∀ k, load (rangeLoop query patch lo hi ks m c).1 k =
        if k ∈ ((hits query m ks).take (hi - c)).drop (lo - c) then touched patch (load m k) else load m k := by
  intro ks
  induction ks with
  | nil => intro m c _ _; simp [rangeLoop, hits]
  | cons k ks ih =>
    intro m c hnd hc
    obtain ⟨hk, hnd⟩ := List.nodup_cons.mp hnd
    rw [rangeLoop]
    cases hl : load m k with
    | none =>
      have : hits query m (k :: ks) = hits query m ks := by simp [hits, hl]
      rw [this]
      exact ih m c hnd hc
    | some v =>
      cases hm : matchAll (query k v) with
      | false =>
        have : hits query m (k :: ks) = hits query m ks := by simp [hits, hl, hm]
        rw [this]
        simpa [hm] using ih m c hnd hc
      | true =>
        have hh : hits query m (k :: ks) = k :: hits query m ks := by simp [hits, hl, hm]
        rw [hh]
        simp only [hm, Bool.not_true, Bool.false_eq_true, if_false]
        generalize hm' : (if (c : Int) ≥ (lo : Int) then touch patch m k v else m) = m'
        have hld : ∀ k', load m' k' = if k' = k ∧ lo ≤ c then touched patch (load m k') else load m k' := by
          intro k'
          rw [← hm']
          by_cases hlo : lo ≤ c
          · rw [if_pos (by omega)]
            cases patch with
            | none => rw [touch, load_delete]; by_cases e : k' = k <;> simp [e, hlo, touched]
            | some p =>
              rw [touch, load_store]
              by_cases e : k' = k
              · subst e; simp [hlo, touched, hl]
              · simp [e]
          · rw [if_neg (by omega)]; simp [hlo]
        have hcg : hits query m' ks = hits query m ks := by
          refine hits_congr fun k' hk' => ?_
          rw [hld, if_neg]
          rintro ⟨rfl, _⟩
          exact hk hk'
        have hnot : ∀ (a b : Nat), k ∉ ((hits query m ks).take a).drop b := by
          intro a b hmem
          have := List.mem_of_mem_take (List.mem_of_mem_drop hmem)
          exact hk (List.mem_filter.mp this).1
        by_cases hlast : (c : Int) + 1 < (hi : Int)
        · rw [if_pos hlast]
          have := ih m' (c + 1) hnd (by omega)
          rw [hcg] at this
          obtain ⟨i1, i2⟩ := this
          rw [show ((c : Int) + 1) = ((c + 1 : Nat) : Int) by omega]
          refine ⟨by rw [i1, List.length_cons]; omega, ?_⟩
          intro k'
          rw [i2, show hi - c = (hi - (c + 1)) + 1 by omega, List.take_succ_cons]
          by_cases hlo : lo ≤ c
          · rw [show lo - c = 0 by omega, show lo - (c + 1) = 0 by omega, List.drop_zero, List.drop_zero]
            by_cases e : k' = k
            · subst e
              have := hnot (hi - (c + 1)) 0
              rw [List.drop_zero] at this
              rw [if_neg this, hld]; simp [hlo]
            · rw [hld]; simp [e]
          · rw [show lo - c = (lo - (c + 1)) + 1 by omega, List.drop_succ_cons]
            rw [hld]; simp [hlo]
        · rw [if_neg hlast]
          refine ⟨by rw [List.length_cons]; omega, ?_⟩
          intro k'
          rw [show hi - c = 1 by omega, List.take_succ_cons, List.take_zero, hld]
          by_cases hlo : lo ≤ c
          · rw [show lo - c = 0 by omega]; simp [hlo]
          · rw [show lo - c = (lo - c - 1) + 1 by omega, List.drop_succ_cons]; simp [hlo]

/-! ### Searching -/

theorem matching_some (q : K → V → List (Expr K V)) (m : List (K × V)) (ks : List K) :
    matching (some q) m ks = (hits q m ks).filterMap fun k => (load m k).map fun v => (k, v) := by
  induction ks with
  | nil => rfl
  | cons k ks ih =>
    rw [matching, ih]
    cases hl : load m k with
    | none => simp [hits, hl]
    | some v => cases hm : matchAll (q k v) <;> simp [hits, hl, hm]

theorem matching_none (m : List (K × V)) (ks : List K) :
    matching none m ks = ks.filterMap fun k => (load m k).map fun v => (k, v) := by
  induction ks with
  | nil => rfl
  | cons k ks ih =>
    rw [matching, ih]
    cases hl : load m k <;> simp [hl]

theorem matching_mem (query : Option (K → V → List (Expr K V))) (m : List (K × V)) (ks : List K) (k : K) (v : V) :
    (k, v) ∈ matching query m ks ↔ k ∈ ks ∧ load m k = some v ∧ ∀ q, query = some q → matchAll (q k v) = true := by
  induction ks with
  | nil => simp [matching]
  | cons k' ks ih =>
    rw [matching]
    cases hl : load m k' with
    | none =>
      dsimp only
      rw [ih, List.mem_cons]
      constructor
      · rintro ⟨h1, h2⟩; exact ⟨.inr h1, h2⟩
      · rintro ⟨h1 | h1, h2, h3⟩
        · subst h1; rw [hl] at h2; cases h2
        · exact ⟨h1, h2, h3⟩
    | some w =>
      have hne : ∀ {l}, ((k, v) ∈ (k', w) :: l) ↔ (k = k' ∧ v = w) ∨ (k, v) ∈ l := by intro l; rw [List.mem_cons, Prod.mk.injEq]
      have base : (k = k' ∧ v = w) → load m k = some v := by rintro ⟨rfl, rfl⟩; exact hl
      cases query with
      | none =>
        dsimp only
        rw [hne, ih, List.mem_cons]
        constructor
        · rintro (h | ⟨h1, h2, h3⟩)
          · exact ⟨.inl h.1, base h, by intro q hq; cases hq⟩
          · exact ⟨.inr h1, h2, h3⟩
        · rintro ⟨h1 | h1, h2, h3⟩
          · subst h1; rw [hl] at h2; injection h2 with h2; exact .inl ⟨rfl, h2.symm⟩
          · exact .inr ⟨h1, h2, h3⟩
      | some q =>
        dsimp only
        cases hm : matchAll (q k' w) with
        | false =>
          rw [if_pos (by rfl), ih, List.mem_cons]
          constructor
          · rintro ⟨h1, h2⟩; exact ⟨.inr h1, h2⟩
          · rintro ⟨h1 | h1, h2, h3⟩
            · subst h1; rw [hl] at h2; injection h2 with h2; subst h2
              rw [h3 q rfl] at hm; cases hm
            · exact ⟨h1, h2, h3⟩
        | true =>
          rw [if_neg (by simp), hne, ih, List.mem_cons]
          constructor
          · rintro (h | ⟨h1, h2, h3⟩)
            · obtain ⟨rfl, rfl⟩ := h
              refine ⟨.inl rfl, hl, ?_⟩
              intro q' hq'; injection hq' with hq'; subst hq'; exact hm
            · exact ⟨.inr h1, h2, h3⟩
          · rintro ⟨h1 | h1, h2, h3⟩
            · subst h1; rw [hl] at h2; injection h2 with h2; exact .inl ⟨rfl, h2.symm⟩
            · exact .inr ⟨h1, h2, h3⟩

theorem matching_keys (query : Option (K → V → List (Expr K V))) (m : List (K × V)) (ks : List K) :
    ((matching query m ks).map (·.1)).Sublist ks := by
  induction ks with
  | nil => exact .slnil
  | cons k ks ih =>
    rw [matching]
    cases load m k with
    | none => exact ih.cons _
    | some v =>
      cases query with
      | none => exact ih.cons_cons _
      | some q =>
        dsimp only
        split
        · exact ih.cons _
        · exact ih.cons_cons _

/-- Loading the keys again yields the same records. -/
theorem reload (m : List (K × V)) (l : List (K × V)) (h : ∀ p ∈ l, load m p.1 = some p.2) :
    (l.map (·.1)).filterMap (fun k => (load m k).map fun v => (k, v)) = l := by
  induction l with
  | nil => rfl
  | cons p l ih =>
    rw [List.map_cons, List.filterMap_cons, h p (by simp)]
    simp only [Option.map_some]
    rw [ih fun p hp => h p (List.mem_cons_of_mem _ hp)]

/-! ### Go's insertion sort -/

theorem split_at {α : Type} : ∀ (j : Nat) (l : List α) (a b : α), l[j]? = some a → l[j + 1]? = some b → ∃ p q, l = p ++ a :: b :: q ∧ p.length = j := by
  intro j
  induction j with
  | zero =>
    intro l a b h1 h2
    match l with
    | [] => simp at h1
    | [x] => simp at h2
    | x :: y :: l => simp at h1 h2; exact ⟨[], l, by simp [h1, h2], rfl⟩
  | succ j ih =>
    intro l a b h1 h2
    match l with
    | [] => simp at h1
    | x :: l =>
      rw [List.getElem?_cons_succ] at h1 h2
      obtain ⟨p, q, e, hp⟩ := ih l a b h1 h2
      exact ⟨x :: p, q, by rw [e]; rfl, by simp [hp]⟩

theorem swap_eq {α : Type} (p q : List α) (a b : α) : ((p ++ a :: b :: q).set p.length b).set (p.length + 1) a = p ++ b :: a :: q := by
  rw [List.set_append_right _ _ (Nat.le_refl _), Nat.sub_self, List.set_cons_zero, List.set_append_right _ _ (by omega),
    show p.length + 1 - p.length = 1 by omega]
  rfl

omit [DecidableEq K] in
theorem sinkDown_perm (cmp : List K → Nat → Nat → Bool) : ∀ (j : Nat) (l : List K), (sinkDown cmp j l).Perm l := by
  intro j
  induction j with
  | zero => intro l; exact .refl _
  | succ j ih =>
    intro l
    rw [sinkDown]
    split
    · split
      · rename_i b a h1 h2
        obtain ⟨p, q, e, hp⟩ := split_at j l a b h2 h1
        refine (ih _).trans ?_
        subst hp
        rw [e, swap_eq]
        exact List.Perm.append_left p (List.Perm.swap ..)
      · exact .refl _
    · exact .refl _

omit [DecidableEq K] in
theorem sortSlice_perm (cmp : List K → Nat → Nat → Bool) (l : List K) : (sortSlice cmp l).Perm l := by
  unfold sortSlice
  have : ∀ (is : List Nat) (acc : List K), (is.foldl (fun acc i => sinkDown cmp i acc) acc).Perm acc := by
    intro is
    induction is with
    | nil => intro acc; exact .refl _
    | cons i is ih => intro acc; exact (ih _).trans (sinkDown_perm cmp i acc)
  exact this _ _

/-- Insert from the right into a list given backwards. -/
def insRev (lt : K → K → Bool) (x : K) : List K → List K
  | [] => [x]
  | a :: r => if lt x a then insRev lt x r ++ [a] else (a :: r).reverse ++ [x]

omit [DecidableEq K] in
theorem insRev_perm (lt : K → K → Bool) (x : K) (r : List K) : (insRev lt x r).Perm (x :: r) := by
  induction r with
  | nil => exact .refl _
  | cons a r ih =>
    rw [insRev]
    split
    · exact (List.perm_append_comm.trans (List.Perm.cons a ih)).trans (List.Perm.swap ..)
    · exact List.perm_append_comm.trans (List.Perm.cons x (List.reverse_perm _))

omit [DecidableEq K] in
theorem insRev_sorted (lt : K → K → Bool) (ha : ∀ a b, lt a b = true → lt b a = false)
    (ht : ∀ a b c, lt a b = false → lt b c = false → lt a c = false) (x : K) :
    ∀ r : List K, r.Pairwise (fun a b => lt a b = false) → (insRev lt x r).Pairwise (fun a b => lt b a = false) := by
  intro r
  induction r with
  | nil => intro _; simp [insRev]
  | cons a r ih =>
    intro h
    obtain ⟨h1, h2⟩ := List.pairwise_cons.mp h
    rw [insRev]
    split
    · rename_i hx
      rw [List.pairwise_append]
      refine ⟨ih h2, by simp, ?_⟩
      intro y hy z hz
      rw [List.mem_singleton] at hz; subst hz
      rcases List.mem_cons.mp ((insRev_perm lt x r).mem_iff.mp hy) with e | e
      · subst e; exact ha _ _ hx
      · exact h1 y e
    · rename_i hx
      rw [List.pairwise_append]
      refine ⟨by rw [List.pairwise_reverse]; exact h, by simp, ?_⟩
      intro y hy z hz
      rw [List.mem_singleton] at hz; subst hz
      have hx : lt z a = false := by simpa using hx
      rcases List.mem_cons.mp (List.mem_reverse.mp hy) with e | e
      · subst e; exact hx
      · exact ht z a y hx (h1 y e)

omit [DecidableEq K] in
theorem sinkDown_eq (zk : K) (lt : K → K → Bool) (x : K) (q : List K) : ∀ r : List K,
    sinkDown (fun now i j => lt (now.getD i zk) (now.getD j zk)) r.length (r.reverse ++ x :: q) = insRev lt x r ++ q := by
  intro r
  induction r generalizing q with
  | nil => rfl
  | cons a r ih =>
    rw [List.length_cons, sinkDown, insRev]
    have e : (a :: r).reverse ++ x :: q = r.reverse ++ a :: x :: q := by simp
    have g1 : ((a :: r).reverse ++ x :: q)[r.length + 1]? = some x := by
      rw [List.getElem?_append_right (by simp)]; simp
    have g2 : ((a :: r).reverse ++ x :: q)[r.length]? = some a := by
      rw [e, List.getElem?_append_right (by simp)]; simp
    have d1 : ((a :: r).reverse ++ x :: q).getD (r.length + 1) zk = x := by rw [List.getD_eq_getElem?_getD, g1]; rfl
    have d2 : ((a :: r).reverse ++ x :: q).getD r.length zk = a := by rw [List.getD_eq_getElem?_getD, g2]; rfl
    rw [d1, d2]
    split
    · rw [g1, g2]
      dsimp only
      have := swap_eq r.reverse q a x
      rw [List.length_reverse] at this
      rw [e, this, ih (a :: q)]
      simp
    · rw [List.append_assoc]; rfl

omit [DecidableEq K] in
theorem sortSlice_sorted (zk : K) (lt : K → K → Bool) (ha : ∀ a b, lt a b = true → lt b a = false)
    (ht : ∀ a b c, lt a b = false → lt b c = false → lt a c = false) (l : List K) :
    (sortSlice (fun now i j => lt (now.getD i zk) (now.getD j zk)) l).Pairwise (fun a b => lt b a = false) := by
  have key : ∀ i, i ≤ l.length → ∃ s : List K, s.length = i ∧ s.Pairwise (fun a b => lt b a = false) ∧
      (List.range i).foldl (fun acc i => sinkDown (fun now i j => lt (now.getD i zk) (now.getD j zk)) i acc) l = s ++ l.drop i := by
    intro i
    induction i with
    | zero => intro _; exact ⟨[], rfl, .nil, rfl⟩
    | succ i ih =>
      intro hi
      obtain ⟨s, h1, h2, h3⟩ := ih (by omega)
      refine ⟨insRev lt l[i] s.reverse, ?_, insRev_sorted lt ha ht _ _ (by rw [List.pairwise_reverse]; exact h2), ?_⟩
      · rw [(insRev_perm lt _ _).length_eq]; simp [h1]
      · rw [List.range_succ, List.foldl_append, h3, List.drop_eq_getElem_cons (by omega)]
        have := sinkDown_eq zk lt l[i] (l.drop (i + 1)) s.reverse
        rw [List.length_reverse, List.reverse_reverse, h1] at this
        exact this
  obtain ⟨s, _, h2, h3⟩ := key l.length (Nat.le_refl _)
  unfold sortSlice
  rw [h3, List.drop_length, List.append_nil]
  exact h2

omit [DecidableEq K] in
theorem sortSlice_contract (zk : K) : SortContract zk (sortSlice (K := K)) :=
  ⟨sortSlice_perm, fun lt ha ht l => sortSlice_sorted zk lt ha ht l⟩

/-! ### Add -/

theorem cons_erase {α : Type} : ∀ (l : List α) (i : Nat) (h : i < l.length), (l[i] :: l.eraseIdx i).Perm l := by
  intro l
  induction l with
  | nil => intro i h; simp at h
  | cons a l ih =>
    intro i h
    cases i with
    | zero => exact .refl _
    | succ i =>
      simp only [List.getElem_cons_succ, List.eraseIdx_cons_succ]
      exact (List.Perm.swap ..).trans ((ih i (by simpa using h)).cons a)

/-- The keys handed out so far are distinct and between 1 and the number of calls. -/
def AddInv {w : Nat} (s : AddSt w V) : Prop :=
  s.id = BitVec.ofNat 64 s.calls ∧
  (s.calls < 2 ^ w → (s.taken.map (·.1) ++ s.added).Nodup ∧ ∀ k ∈ s.taken.map (·.1) ++ s.added, 1 ≤ k.toNat ∧ k.toNat ≤ s.calls)

theorem addInv_step {w : Nat} (hw : w ≤ 64) (s : AddSt w V) (h : AddInv s) (a : AddAct w V) : AddInv (addStep s a) := by
  obtain ⟨h1, h2⟩ := h
  cases a with
  | take v =>
    refine ⟨?_, ?_⟩
    · show s.id + 1 = BitVec.ofNat 64 (s.calls + 1)
      rw [h1, BitVec.ofNat_add]; rfl
    · intro hc
      have hc : s.calls + 1 < 2 ^ w := hc
      obtain ⟨g1, g2⟩ := h2 (by omega)
      have hk : ((s.id + 1).setWidth w).toNat = s.calls + 1 := by
        have h64 : 2 ^ w ≤ 2 ^ 64 := Nat.pow_le_pow_right (by omega) hw
        rw [h1, BitVec.toNat_setWidth, BitVec.toNat_add, BitVec.toNat_ofNat]
        rw [Nat.mod_eq_of_lt (show s.calls < 2 ^ 64 by omega)]
        show (s.calls + 1) % 2 ^ 64 % 2 ^ w = _
        rw [Nat.mod_eq_of_lt (show s.calls + 1 < 2 ^ 64 by omega), Nat.mod_eq_of_lt hc]
      have hp : ((s.taken ++ [((s.id + 1).setWidth w, v)]).map (·.1) ++ s.added).Perm ((s.id + 1).setWidth w :: (s.taken.map (·.1) ++ s.added)) := by
        rw [List.map_append, List.append_assoc]
        exact List.perm_middle
      refine ⟨?_, ?_⟩
      · show ((s.taken ++ [((s.id + 1).setWidth w, v)]).map (·.1) ++ s.added).Nodup
        rw [hp.nodup_iff, List.nodup_cons]
        refine ⟨fun hm => ?_, g1⟩
        have := (g2 _ hm).2
        omega
      · intro k hk'
        rcases List.mem_cons.mp (hp.mem_iff.mp hk') with e | e
        · rw [e, hk]; exact ⟨by omega, Nat.le_refl _⟩
        · have := g2 k e
          exact ⟨this.1, Nat.le_succ_of_le this.2⟩
  | finish i =>
    rw [addStep]
    split
    · exact ⟨h1, h2⟩
    · rename_i k v hi
      have hlt : i < s.taken.length := by
        rcases Nat.lt_or_ge i s.taken.length with h | h
        · exact h
        · rw [List.getElem?_eq_none h] at hi; cases hi
      have hsub : ((s.taken.eraseIdx i).map (·.1)).Sublist (s.taken.map (·.1)) := (List.eraseIdx_sublist ..).map _
      have hperm : ((s.taken.eraseIdx i).map (·.1) ++ k :: s.added).Perm (s.taken.map (·.1) ++ s.added) := by
        refine List.perm_middle.trans ?_
        rw [← List.cons_append]
        refine List.Perm.append_right _ ?_
        have e : s.taken[i] = (k, v) := by rw [List.getElem?_eq_getElem hlt] at hi; injection hi
        have := cons_erase s.taken i hlt
        have := this.map (·.1)
        rw [List.map_cons, e] at this
        exact this
      split
      · refine ⟨h1, fun hc => ?_⟩
        obtain ⟨g1, g2⟩ := h2 hc
        have hs : ((s.taken.eraseIdx i).map (·.1) ++ s.added).Sublist (s.taken.map (·.1) ++ s.added) := hsub.append (.refl _)
        exact ⟨hs.nodup g1, fun k hk => g2 k (hs.subset hk)⟩
      · refine ⟨h1, fun hc => ?_⟩
        obtain ⟨g1, g2⟩ := h2 hc
        exact ⟨hperm.nodup_iff.mpr g1, fun k hk => g2 k (hperm.mem_iff.mp hk)⟩
  | insert k u v => exact ⟨h1, h2⟩
  | delete k => exact ⟨h1, h2⟩

theorem addInv_run {w : Nat} (hw : w ≤ 64) (as : List (AddAct w V)) : AddInv (addRun as) := by
  unfold addRun
  have : ∀ (as : List (AddAct w V)) (s : AddSt w V), AddInv s → AddInv (as.foldl addStep s) := by
    intro as
    induction as with
    | nil => intro s h; exact h
    | cons a as ih => intro s h; exact ih _ (addInv_step hw s h a)
  exact this as _ ⟨rfl, fun _ => ⟨List.nodup_nil, by simp⟩⟩

end Verif.Sql
