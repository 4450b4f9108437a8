import Verif.Sql.Lemmas

/-! Properties of the in-memory database: C19, C20, C21, C22, C24, C54, C55. -/
namespace Verif.Sql

variable {K V : Type} [DecidableEq K]

/-! ### C19: a key-value map -/

/-- **C19.** Any sequence of operations on the in-memory database gives the answers a mathematical map gives, and leaves
the contents that map would have. -/
theorem ram_is_a_map (os : List (Op K V)) :
    answers onRam [] os = answers onMap (fun _ => none) os ∧
    load (os.foldl (fun m o => (onRam m o).1) []) = os.foldl (fun f o => (onMap f o).1) (fun _ => none) := by
  refine ⟨answers_refine os [], ?_⟩
  have : ∀ (os : List (Op K V)) (m : List (K × V)),
      load (os.foldl (fun m o => (onRam m o).1) m) = os.foldl (fun f o => (onMap f o).1) (load m) := by
    intro os
    induction os with
    | nil => intro m; rfl
    | cons o os ih => intro m; rw [List.foldl_cons, List.foldl_cons, ih, (op_refines m o).1]
  exact this os []

/-- A run that duplicates, overwrites, is refused by a check, mutates and deletes. -/
example : answers onRam ([] : List (Nat × Nat))
    [.insert 1 false 10, .insert 1 false 11, .lookup 1, .insert 1 true 12, .delete 1 (some fun v => [true, v == 10]),
     .mutate 1 (some fun v => [v == 12]) (· + 1), .lookup 1, .delete 1 none, .lookup 1, .mutate 1 none id] =
    [.error none, .error (some .duplicate), .found (some 10), .error none, .did false, .did true, .found (some 13), .did true, .found none, .did false] := by
  decide

/-! ### C20: Add -/

/-- **C20 (partial).** While fewer than 2^w calls of `Add` have been made on a map whose keys have `w` bits, the keys
returned by successful calls are pairwise distinct, whatever other calls run in between and however the calls of `Add`
interleave. -/
theorem add_unique_partial {w : Nat} (hw : w ≤ 64) (as : List (AddAct w V)) (h : (addRun as).calls < 2 ^ w) : (addRun as).added.Nodup := by
  have := ((addInv_run hw as).2 h).1
  exact (List.sublist_append_right ..).nodup this

omit [DecidableEq K] in
/-- **C20**, the second half: no step of `Add` changes a record that exists. -/
theorem add_never_overwrites {w : Nat} (s : AddSt w V) (a : AddAct w V) (ha : (∃ v, a = .take v) ∨ ∃ i, a = .finish i)
    (k : BitVec w) (v : V) (h : load s.map k = some v) : load (addStep s a).map k = some v := by
  rcases ha with ⟨x, rfl⟩ | ⟨i, rfl⟩
  · exact h
  · rw [addStep]
    split
    · exact h
    · split
      · exact h
      · rename_i k' v' _ _ hn
        show load (store s.map k' v') k = some v
        rw [load_store, if_neg]
        · exact h
        · rintro rfl; rw [h] at hn; cases hn

/-- **C20**, success: when a call of `Add` succeeds its record is stored under its key. -/
theorem add_stores {w : Nat} (s : AddSt w V) (i : Nat) (k : BitVec w) (v : V) (hi : s.taken[i]? = some (k, v)) (hn : load s.map k = none) :
    load (addStep s (.finish i)).map k = some v ∧ (addStep s (.finish i)).added = k :: s.added := by
  rw [addStep, hi]
  dsimp only
  rw [hn]
  exact ⟨by dsimp only; rw [load_store, if_pos rfl], rfl⟩

/-- **C20**, the full claim. -/
def AddUnique : Prop := ∀ as : List (AddAct 8 Nat), (addRun as).added.Nodup

/-- **C20 fails** for small key types: the 257th call on 8-bit keys returns key 1 again once that record was deleted. -/
theorem add_unique_fails : ¬ AddUnique := by
  intro h
  let as : List (AddAct 8 Nat) := (List.range 257).flatMap fun i => [AddAct.take 0, .finish 0, .delete (BitVec.ofNat 8 (i + 1))]
  have h2 : (addRun as).added.head? = some 1 ∧ 1 ∈ (addRun as).added.tail := by decide +kernel
  have h1 := h as
  generalize (addRun as).added = l at h1 h2
  cases l with
  | nil => simp at h2
  | cons x l =>
    obtain ⟨h3, h4⟩ := h2
    injection h3 with h3
    subst h3
    exact (List.nodup_cons.mp h1).1 h4

example : (addRun [AddAct.take 5, .take 6, .insert 2 false 9, .finish 1, .finish 0, .take 7, .finish 0] : AddSt 8 Nat).added = [3, 1] := by decide

/-! ### C21: query combinators -/

/-- **C21 (partial).** A query built from conditions with the library's combinators lets a record through exactly when
every condition of the list holds, as long as no disjunction is empty. -/
theorem combinators_boolean_partial (k : K) (v : V) (cs : List (Cond K V)) (h : allNonEmpty cs) :
    matchAll (exprs k v cs) = true ↔ allHold k v cs := by
  obtain ⟨bs, h1, _, h3, _⟩ := conds_value k v cs h
  rw [h1, matchAll_value, h3]

/-- **C21**, the full claim. -/
def CombinatorsBoolean : Prop := ∀ (k v : Nat) (cs : List (Cond Nat Nat)), matchAll (exprs k v cs) = true ↔ allHold k v cs

/-- **C21 fails**: a disjunction of nothing lets everything through. -/
theorem combinators_boolean_fails : ¬ CombinatorsBoolean := by
  intro h
  have := (h 0 0 [.any []]).mp rfl
  simp [allHold, Cond.Holds, anyHolds] at this

example : allNonEmpty ([.any [.min (fun _ v => (v : Int)) 3, .not (.all [.equals (fun k _ => (k : Int)) 1])]] : List (Cond Nat Nat)) ∧
    matchAll (exprs 1 4 ([.any [.min (fun _ v => (v : Int)) 3, .not (.all [.equals (fun k _ => (k : Int)) 1])]] : List (Cond Nat Nat))) = true ∧
    matchAll (exprs 1 2 ([.any [.min (fun _ v => (v : Int)) 3, .not (.all [.equals (fun k _ => (k : Int)) 1])]] : List (Cond Nat Nat))) = false := by
  refine ⟨by simp [allNonEmpty, Cond.NonEmpty], by decide, by decide⟩

/-! ### C22: ranged delete and update -/

theorem visits_of {m : List (Nat × Nat)} {order : List Nat} (h : order.Nodup) (h2 : ∀ k ∈ order, (load m k).isSome = true)
    (h3 : ∀ p ∈ m, p.1 ∈ order) : Visits m order := by
  refine ⟨h, fun k => ⟨h2 k, ?_⟩⟩
  intro hk
  have : ∀ m : List (Nat × Nat), (load m k).isSome = true → ∃ p ∈ m, p.1 = k := by
    intro m
    induction m with
    | nil => intro h; cases h
    | cons p m ih =>
      intro h
      rw [load] at h
      split at h
      · exact ⟨p, by simp, by assumption⟩
      · obtain ⟨p', h1, h2⟩ := ih h; exact ⟨p', List.mem_cons_of_mem _ h1, h2⟩
  obtain ⟨p, h4, h5⟩ := this m hk
  rw [← h5]; exact h3 p h4

/-- **C22 (partial).** With a slice `[lo, hi)`, `hi > 0`, in whatever order the records are visited: a record is deleted
exactly when it is one of the matching records number `lo` to `hi - 1`; at most `hi - lo` records go. The number reported
counts the skipped records too; it is the number deleted when `lo = 0`. -/
theorem unsafe_delete_partial (zk : K) (zv : V) (order : List K) (m : List (K × V)) (query : K → V → List (Expr K V)) (lo hi : Nat)
    (hv : Visits m order) (hl : limitOf (query zk zv) = ((lo : Int), (hi : Int))) (h0 : 0 < hi) :
    (∀ k, load (unsafeDelete zk zv order m query).1 k = if k ∈ ((hits query m order).take hi).drop lo then none else load m k) ∧
    (((hits query m order).take hi).drop lo).length ≤ hi - lo ∧
    (lo = 0 → (unsafeDelete zk zv order m query).2 = (((hits query m order).take hi).drop lo).length) := by
  have := rangeLoop_spec query none lo hi order m 0 hv.1 h0
  unfold unsafeDelete
  rw [hl]
  dsimp only
  refine ⟨?_, ?_, ?_⟩
  · intro k; simpa [touched] using this.2 k
  · simp; omega
  · rintro rfl; simpa using this.1

/-- **C22 (partial)**, updates: the same, the records being patched instead. -/
theorem update_partial (zk : K) (zv : V) (order : List K) (m : List (K × V)) (query : K → V → List (Expr K V)) (patch : V → V) (lo hi : Nat)
    (hv : Visits m order) (hl : limitOf (query zk zv) = ((lo : Int), (hi : Int))) (h0 : 0 < hi) :
    (∀ k, load (update zk zv order m query patch).1 k = if k ∈ ((hits query m order).take hi).drop lo then (load m k).map patch else load m k) ∧
    (((hits query m order).take hi).drop lo).length ≤ hi - lo ∧
    (lo = 0 → (update zk zv order m query patch).2 = (((hits query m order).take hi).drop lo).length) := by
  have := rangeLoop_spec query (some patch) lo hi order m 0 hv.1 h0
  unfold update
  rw [hl]
  dsimp only
  refine ⟨?_, ?_, ?_⟩
  · intro k; simpa [touched] using this.2 k
  · simp; omega
  · rintro rfl; simpa using this.1

/-- **C22**: the matching records are those present for which every condition of the query holds. -/
theorem hits_iff (order : List K) (m : List (K × V)) (query : K → V → List (Expr K V)) (hv : Visits m order) (k : K) :
    k ∈ hits query m order ↔ ∃ v, load m k = some v ∧ matchAll (query k v) = true := by
  unfold hits
  rw [List.mem_filter, hv.2]
  cases load m k <;> simp

/-- **C22**, the full claim for deletions: at most `hi - lo` records are deleted and the number reported is the number of
records deleted. -/
def UnsafeDeleteCounts : Prop :=
  ∀ (order : List Nat) (m : List (Nat × Nat)) (lo hi : Nat), Visits m order →
    let r := unsafeDelete 0 0 order m fun _ _ => [.range lo hi]
    (order.filter fun k => (load r.1 k).isNone).length ≤ hi - lo ∧ r.2 = (order.filter fun k => (load r.1 k).isNone).length

/-- **C22 fails**: `Slice(1, 2)` on two records deletes one and reports two. -/
theorem unsafe_delete_count_fails : ¬ UnsafeDeleteCounts := by
  intro h
  have := (h [1, 2] [(1, 10), (2, 20)] 1 2 (visits_of (by decide) (by decide) (by decide))).2
  revert this
  decide

/-- **C22 fails** for the empty slice, and without any slice: one record goes. -/
theorem unsafe_delete_empty_slice :
    unsafeDelete 0 0 [1, 2] [(1, 10), (2, 20)] (fun _ _ => [.range 0 0]) = ([(2, 20)], 1) ∧
    unsafeDelete 0 0 [1, 2] [(1, 10), (2, 20)] (fun _ _ => []) = ([(2, 20)], 1) := by decide

example : ∃ (m : List (Nat × Nat)) (order : List Nat), Visits m order ∧ m.length = 3 ∧
    unsafeDelete 0 0 order m (fun _ v => [.range 0 2, .value (v > 10)]) = ([(1, 10)], 2) :=
  ⟨[(1, 10), (2, 20), (3, 30)], [3, 1, 2], visits_of (by decide) (by decide) (by decide), rfl, by decide⟩

/-! ### C54: searches find exactly the matching records -/

/-- **C54.** In whatever order the records are visited and whatever permutation the sorting produces, a search yields each
matching record exactly once and nothing else; counting counts them. -/
theorem search_exact (zk : K) (zv : V) (sort : (List K → Nat → Nat → Bool) → List K → List K) (hs : ∀ cmp l, (sort cmp l).Perm l)
    (order : List K) (m : List (K × V)) (query : Option (K → V → List (Expr K V))) (hv : Visits m order) :
    (∀ k v, (k, v) ∈ search zk zv sort order m query ↔ load m k = some v ∧ ∀ q, query = some q → matchAll (q k v) = true) ∧
    ((search zk zv sort order m query).map (·.1)).Nodup ∧
    count query m order = (search zk zv sort order m query).length := by
  have hp : (search zk zv sort order m query).Perm (matching query m order) := by
    unfold search
    cases query with
    | none => exact .refl _
    | some q =>
      dsimp only
      split
      · refine ((hs _ _).filterMap _).trans ?_
        rw [reload]
        intro p hp
        exact ((matching_mem (some q) m order p.1 p.2).mp hp).2.1
      · exact .refl _
  refine ⟨?_, ?_, ?_⟩
  · intro k v
    rw [hp.mem_iff, matching_mem, hv.2]
    constructor
    · exact fun h => h.2
    · intro h; exact ⟨by rw [h.1]; rfl, h⟩
  · rw [(hp.map _).nodup_iff]
    exact (matching_keys query m order).nodup hv.1
  · rw [hp.length_eq]; rfl

/-- **C54** for a query written with conditions. -/
theorem search_conditions (zk : K) (zv : V) (sort : (List K → Nat → Nat → Bool) → List K → List K) (hs : ∀ cmp l, (sort cmp l).Perm l)
    (order : List K) (m : List (K × V)) (cs : List (Cond K V)) (hc : allNonEmpty cs) (hv : Visits m order) (k : K) (v : V) :
    (k, v) ∈ search zk zv sort order m (some fun k v => exprs k v cs) ↔ load m k = some v ∧ allHold k v cs := by
  rw [(search_exact zk zv sort hs order m _ hv).1]
  constructor
  · rintro ⟨h1, h2⟩
    exact ⟨h1, (combinators_boolean_partial k v cs hc).mp (h2 _ rfl)⟩
  · rintro ⟨h1, h2⟩
    refine ⟨h1, ?_⟩
    intro q hq
    injection hq with hq
    subst hq
    exact (combinators_boolean_partial k v cs hc).mpr h2

/-! ### C24: ordered searches -/

/-- **C24**, the full claim: the records come out sorted by the order expressions, the earlier taking precedence. -/
def SearchSorted (sort : (List Nat → Nat → Nat → Bool) → List Nat → List Nat) : Prop :=
  ∀ (order : List Nat) (m : List (Nat × Nat)) (q : Nat → Nat → List (Expr Nat Nat)), Visits m order → orderedOf (q 0 0) = true →
    (search 0 0 sort order m (some q)).Pairwise fun a b => lexLess (ordersOf (q 0 0)) b a = false

/-- **C24 (partial).** With a single order expression on a column of the key, and any sorting algorithm that does what Go
documents for `sort.Slice`, the records come out sorted. -/
theorem search_sorted_partial (zk : K) (zv : V) (sort : (List K → Nat → Nat → Bool) → List K → List K) (hs : SortContract zk sort)
    (order : List K) (m : List (K × V)) (q : K → V → List (Expr K V)) (d : Bool) (c : K → V → Int)
    (ho : ordersOf (q zk zv) = [(d, c)]) (hk : ∀ k v v', c k v = c k v') (hq : orderedOf (q zk zv) = true) :
    (search zk zv sort order m (some q)).Pairwise fun a b => lexLess (ordersOf (q zk zv)) b a = false := by
  unfold search
  dsimp only
  rw [if_pos hq, ho]
  generalize hf : matching (some q) m order = found
  have hcmp : comparison zk zv [(d, c)] (found.map (·.2)) = fun now i j => less d c (now.getD i zk, zv) (now.getD j zk, zv) := by
    funext now i j
    unfold comparison less
    simp only [List.all_cons, List.all_nil, Bool.and_true]
    simp only [hk _ ((found.map (·.2)).getD i zv) zv, hk _ ((found.map (·.2)).getD j zv) zv]
  have hlex : ∀ a b : K × V, lexLess [(d, c)] b a = false ↔ less d c (b.1, zv) (a.1, zv) = false := by
    intro a b
    unfold lexLess lexLess less
    simp only [hk b.1 b.2 zv, hk a.1 a.2 zv]
    cases d <;> simp
  rw [hcmp]
  have hsorted := hs.2 (fun a b => less d c (a, zv) (b, zv))
    (by intro a b; unfold less; cases d <;> simp <;> omega)
    (by intro a b e; unfold less; cases d <;> simp <;> omega) (found.map (·.1))
  generalize sort (fun now i j => less d c (now.getD i zk, zv) (now.getD j zk, zv)) (found.map (·.1)) = ks at hsorted
  rw [List.pairwise_filterMap]
  refine hsorted.imp ?_
  intro a b hab x hx y hy
  rw [hlex]
  obtain ⟨v, _, rfl⟩ := Option.map_eq_some_iff.mp hx
  obtain ⟨w, _, rfl⟩ := Option.map_eq_some_iff.mp hy
  exact hab

/-- Go's insertion sort meets the contract. -/
theorem insertion_sort_contract (zk : K) : SortContract zk (sortSlice (K := K)) := sortSlice_contract zk

/-- **C24 fails** for a column of the value: the comparison looks at values that do not move with their keys. -/
theorem search_sorted_fails : ¬ SearchSorted sortSlice := by
  intro h
  exact absurd (h [1, 2, 3] [(1, 2), (2, 3), (3, 1)] (fun _ _ => [.order false fun _ v => v]) (visits_of (by decide) (by decide) (by decide)) rfl)
    (by decide +kernel)

/-- **C24 fails** also for two columns of the key: the comparison wants every column to be less. -/
theorem search_two_orders_fails :
    ∃ q : Nat → Nat → List (Expr Nat Nat), orderedOf (q 0 0) = true ∧ Visits [(21, 0), (12, 0)] [21, 12] ∧
      search 0 0 sortSlice [21, 12] [(21, 0), (12, 0)] (some q) = [(21, 0), (12, 0)] ∧
      lexLess (ordersOf (q 0 0)) (12, 0) (21, 0) = true :=
  ⟨fun _ _ => [.order false fun k _ => (k / 10 : Nat), .order false fun k _ => (k % 10 : Nat)], rfl, visits_of (by decide) (by decide) (by decide), by decide +kernel, by decide⟩

example : search 0 0 sortSlice [2, 3, 1] [(1, 2), (2, 3), (3, 1)] (some fun _ v => [.value (v > 1), .order true fun k _ => (k : Int)]) =
    [(2, 3), (1, 2)] := by decide +kernel

/-! ### C55: slices limit searches -/

/-- **C55** as documented for `Slice`: a search yields the matching records number `lo` to `hi - 1` only. -/
def SearchSliced : Prop :=
  ∀ (order : List Nat) (m : List (Nat × Nat)) (lo hi : Nat), Visits m order →
    (search 0 0 sortSlice order m (some fun _ _ => [.range lo hi])).length ≤ hi - lo

/-- **C55 fails**: searching ignores the slice. -/
theorem search_sliced_fails : ¬ SearchSliced := by
  intro h
  exact absurd (h [1, 2] [(1, 10), (2, 20)] 0 1 (visits_of (by decide) (by decide) (by decide))) (by decide)

end Verif.Sql
