import Verif.Sql.StatSpec
import Verif.Sql.DbMapLemmas

/-! C212: statistics. C213: results of drivers. -/
namespace Verif.Sql.Stat

theorem fits_new (k : Kind) (a : Atom) (h : Fits k a) : valuesOf (.scalar (newPointerFor (tagOf k))) (.scalar a) = some [(tagOf k, a)] := by
  have h' : Fits (newPointerFor (tagOf k)) a := by cases k <;> cases a <;> exact h
  have e : tagOf (newPointerFor (tagOf k)) = tagOf k := by cases k <;> rfl
  rw [valuesOf, scalar_value h', e]
  rfl

theorem count_edit_uint64 (k : CKind) (n : Nat) (h : k.Holds n) : countEdit k (.uint64, .int n) = n := by
  cases k <;> simp only [CKind.Holds] at h <;> rw [countEdit]
  · rw [if_neg (by omega)]; exact Int.bmod_eq_of_le (by omega) (by omega)
  · rw [if_neg (by omega)]; exact Int.bmod_eq_of_le (by omega) (by omega)
  · rw [if_neg (by omega)]; exact Int.emod_eq_of_lt (by omega) (by omega)

theorem dbUpdate_ok (n : Nat) (total : Nat → Int) (col : Nat → Col) (hn : n < 2 ^ 64) : ∀ (is : List Item), (∀ i ∈ is, i.Fine n total col) → (is.map Item.ptr).Nodup →
    ∃ cs, readBack ((is.map (calculation col)).map calcPointer) (is.map fun i => .int (i.answer n total)) = some cs ∧ ∀ s,
      ∃ s', dbUpdate is cs s = some s' ∧ (∀ i ∈ is, s' i.ptr = i.answer n total) ∧ ∀ p, p ∉ is.map Item.ptr → s' p = s p := by
  intro is
  induction is with
  | nil => intro _ _; exact ⟨[], rfl, fun s => ⟨s, rfl, by simp, fun _ _ => rfl⟩⟩
  | cons i is ih =>
    intro hf hd
    rw [List.map_cons, List.nodup_cons] at hd
    obtain ⟨cs, a1, a2⟩ := ih (fun i h => hf i (List.mem_cons_of_mem _ h)) hd.2
    have hi := hf i (by simp)
    cases i with
    | count k p =>
      refine ⟨(.uint64, .int n) :: cs, ?_, ?_⟩
      · rw [List.map_cons, List.map_cons, List.map_cons, readBack, a1]
        have : Fits .uint64 (.int n) := ⟨by omega, by omega⟩
        simp only [calculation, calcPointer, Item.answer]
        rw [valuesOf, scalar_value this]
        rfl
      · intro s
        obtain ⟨s', b1, b2, b3⟩ := a2 (s.set p (countEdit k (.uint64, .int n)))
        refine ⟨s', by rw [dbUpdate, b1], ?_, ?_⟩
        · intro i h
          rcases List.mem_cons.mp h with rfl | h
          · rw [b3 _ hd.1]
            simp only [Item.ptr, Item.answer, Store.set, if_true]
            exact count_edit_uint64 k n hi
          · exact b2 i h
        · intro q hq
          simp only [List.map_cons, List.mem_cons, not_or, Item.ptr] at hq
          rw [b3 q hq.2, Store.set, if_neg hq.1]
    | sum k f p =>
      obtain ⟨h1, h2⟩ := hi
      refine ⟨(tagOf k, .int (total f)) :: cs, ?_, ?_⟩
      · rw [List.map_cons, List.map_cons, List.map_cons, readBack, a1]
        simp only [calculation, calcPointer, Item.answer]
        rw [h2, fits_new k _ h1]
        rfl
      · intro s
        obtain ⟨s', b1, b2, b3⟩ := a2 (s.set p (total f))
        refine ⟨s', by rw [dbUpdate, decodeScalar, if_pos rfl]; exact b1, ?_, ?_⟩
        · intro i h
          rcases List.mem_cons.mp h with rfl | h
          · rw [b3 _ hd.1]
            simp [Item.ptr, Item.answer, Store.set]
          · exact b2 i h
        · intro q hq
          simp only [List.map_cons, List.mem_cons, not_or, Item.ptr] at hq
          rw [b3 q hq.2, Store.set, if_neg hq.1]

/-- **C212 (partial), on a database.** Whatever statistics are asked for in one call, with different pointers, of types that
can hold the answers: with a driver that uses `NewOutput` and scans the answers, every counter ends as the number of records
and every sum as the sum, whatever they were before. -/
theorem db_stats_partial (n : Nat) (total : Nat → Int) (col : Nat → Col) (hn : n < 2 ^ 64) (is : List Item) (hf : ∀ i ∈ is, i.Fine n total col)
    (hd : (is.map Item.ptr).Nodup) (scan : List Kind → Option (List Atom)) (hs : Scans is n total ((is.map (calculation col)).map calcPointer) scan) (s : Store) :
    ∃ cs s', newOutput (is.map (calculation col)) scan = some (some cs) ∧ dbOutput is (some cs) s = some (s', false) ∧
      ∀ i ∈ is, s' i.ptr = i.answer n total := by
  obtain ⟨cs, a1, a2⟩ := dbUpdate_ok n total col hn is hf hd
  obtain ⟨s', b1, b2, _⟩ := a2 (dbCall is s)
  refine ⟨cs, s', ?_, by rw [dbOutput, b1]; rfl, b2⟩
  rw [newOutput, hs]
  dsimp only
  rw [a1]
  rfl

/-- Two counters and the sum of an `int` field of 3 records. -/
def exItems : List Item := [.count .int32 0, .sum .int 7 2, .count .uint64 1]

example : (∀ i ∈ exItems, i.Fine 3 (fun _ => -40) fun _ => ("age".toList, .int64)) ∧ (exItems.map Item.ptr).Nodup ∧
    ∃ scan, Scans exItems 3 (fun _ => -40) ((exItems.map (calculation fun _ => ("age".toList, .int64))).map calcPointer) scan := by
  refine ⟨?_, by decide +kernel, fun _ => some _, rfl⟩
  intro i hi
  simp only [exItems, List.mem_cons, List.not_mem_nil, or_false] at hi
  rcases hi with rfl | rfl | rfl
  · simp [Item.Fine, CKind.Holds]
  · simp [Item.Fine, Fits, tagOf]
  · simp [Item.Fine, CKind.Holds]

/-- Only counts. -/
def OnlyCounts (is : List Item) : Prop := ∀ i ∈ is, ∃ k p, i = .count k p

theorem memCall_ok : ∀ (is : List Item), OnlyCounts is → (is.map Item.ptr).Nodup → ∀ s, ∃ s', memCall is s = some s' ∧
    (∀ k p, .count k p ∈ is → s' p = k.wrap (s p + 1)) ∧ ∀ p, p ∉ is.map Item.ptr → s' p = s p := by
  intro is
  induction is with
  | nil => intro _ _ s; exact ⟨s, rfl, by simp, fun _ _ => rfl⟩
  | cons i is ih =>
    intro ho hd s
    rw [List.map_cons, List.nodup_cons] at hd
    obtain ⟨k, p, rfl⟩ := ho i (by simp)
    obtain ⟨s', a1, a2, a3⟩ := ih (fun i h => ho i (List.mem_cons_of_mem _ h)) hd.2 (countCall s k p)
    refine ⟨s', by rw [memCall, a1], ?_, ?_⟩
    · intro k' p' hmem
      rcases List.mem_cons.mp hmem with h | h
      · cases h
        rw [a3 p hd.1]; simp [countCall, Store.set]
      · rw [a2 k' p' h, countCall, Store.set, if_neg]
        intro he
        subst he
        exact hd.1 (List.mem_map.mpr ⟨_, h, rfl⟩)
    · intro q hq
      simp only [List.map_cons, List.mem_cons, not_or, Item.ptr] at hq
      rw [a3 q hq.2, countCall, Store.set, if_neg hq.1]

theorem wrap_id (k : CKind) (z : Int) (h : k.Holds z) : k.wrap z = z := by
  cases k <;> simp only [CKind.Holds] at h <;> simp only [CKind.wrap, toSigned, toUnsigned]
  · exact Int.bmod_eq_of_le (by omega) (by omega)
  · exact Int.bmod_eq_of_le (by omega) (by omega)
  · exact Int.emod_eq_of_lt (by omega) (by omega)
  · exact Int.emod_eq_of_lt (by omega) (by omega)

/-- **C212 (partial), in memory.** Every counter has grown by the number of records that match. -/
theorem mem_counts_partial (is : List Item) (ho : OnlyCounts is) (hd : (is.map Item.ptr).Nodup) : ∀ (n : Nat) (s : Store),
    (∀ k p, .count k p ∈ is → k.Holds (s p) ∧ k.Holds (s p + n)) → ∃ s', memOutput is n s = some s' ∧ ∀ i ∈ is, s' i.ptr = s i.ptr + n := by
  intro n
  induction n with
  | zero => intro s _; exact ⟨s, rfl, fun _ _ => by simp⟩
  | succ n ih =>
    intro s hs
    obtain ⟨s1, a1, a2, _⟩ := memCall_ok is ho hd s
    have h1 : ∀ k p, .count k p ∈ is → s1 p = s p + 1 := by
      intro k p h
      rw [a2 k p h]
      apply wrap_id
      obtain ⟨b1, b2⟩ := hs k p h
      cases k <;> simp only [CKind.Holds] at b1 b2 ⊢ <;> omega
    obtain ⟨s', c1, c2⟩ := ih s1 (by
      intro k p h
      obtain ⟨b1, b2⟩ := hs k p h
      rw [h1 k p h]
      cases k <;> simp only [CKind.Holds] at b1 b2 ⊢ <;> omega)
    refine ⟨s', by rw [memOutput, a1]; exact c1, ?_⟩
    intro i hi
    rw [c2 i hi]
    obtain ⟨k, p, rfl⟩ := ho i hi
    simp only [Item.ptr]
    rw [h1 k p hi]
    omega

example : OnlyCounts [.count .int32 0, .count .uint64 1] ∧ ([Item.count .int32 0, .count .uint64 1].map Item.ptr).Nodup ∧
    ∀ k p, Item.count k p ∈ [Item.count .int32 0, .count .uint64 1] → k.Holds 4 ∧ k.Holds (4 + 3) := by
  refine ⟨?_, by decide +kernel, ?_⟩
  · intro i hi
    simp only [List.mem_cons, List.not_mem_nil, or_false] at hi
    rcases hi with rfl | rfl
    · exact ⟨_, _, rfl⟩
    · exact ⟨_, _, rfl⟩
  · intro k p h
    simp only [List.mem_cons, Item.count.injEq, List.not_mem_nil, or_false] at h
    rcases h with ⟨rfl, rfl⟩ | ⟨rfl, rfl⟩ <;> simp [CKind.Holds]

/-- The types of values a count can be reported as without loss. -/
def reportable : CKind → Tag → Bool
  | .int32, .int8 | .int32, .int16 | .int32, .int32 | .int32, .int64 | .int32, .uint64 => true
  | .int64, .int8 | .int64, .int16 | .int64, .int32 | .int64, .int64 | .int64, .uint64 => true
  | .uint32, .uint8 | .uint32, .uint16 | .uint32, .uint32 | .uint32, .uint64 => true
  | .uint64, .uint8 | .uint64, .uint16 | .uint64, .uint32 | .uint64, .uint64 => true
  | _, _ => false

/-- **C212 (partial), other drivers.** A count that the counter can hold, reported in an integer type, is stored as it is just
when the type is one of those listed; otherwise -1 is stored, or 0 in unsigned counters. -/
theorem count_report_partial (k : CKind) (t : Tag) (n : Nat) (hn : k.Holds n) :
    countEdit k (t, .int n) = if reportable k t then (n : Int) else if k = .int32 ∨ k = .int64 then -1 else 0 := by
  cases k <;> simp only [CKind.Holds] at hn
  · have e : toSigned 32 n = n := Int.bmod_eq_of_le (by omega) (by omega)
    cases t <;> rw [countEdit.eq_def] <;> dsimp only [reportable] <;> (try rw [if_neg (by omega)]) <;> (try rw [e]) <;> simp
  · have e : toSigned 64 n = n := Int.bmod_eq_of_le (by omega) (by omega)
    cases t <;> rw [countEdit.eq_def] <;> dsimp only [reportable] <;> (try rw [if_neg (by omega)]) <;> (try rw [e]) <;> simp
  · have e : toUnsigned 32 n = n := Int.emod_eq_of_lt (by omega) (by omega)
    cases t <;> rw [countEdit.eq_def] <;> dsimp only [reportable] <;> (try rw [if_neg (by omega)]) <;> (try rw [e]) <;> simp
  · have e : toUnsigned 64 n = n := Int.emod_eq_of_lt (by omega) (by omega)
    cases t <;> rw [countEdit.eq_def] <;> dsimp only [reportable] <;> (try rw [if_neg (by omega)]) <;> (try rw [e]) <;> simp

/-- **C212**, the full claim for counting: whatever integer type the database reports the number in, the number is what is
counted. -/
def CountReported : Prop := ∀ (k : CKind) (t : Kind) (n : Nat), k.Holds n → Fits t (.int n) → countEdit k (tagOf t, .int n) = n

/-- **C212 fails**: a database that reports three records as an `int64` is taken to have none by an `atomic.Uint64`, and one
that reports them as a `uint32` is taken to have -1 by `Map.Count`. -/
theorem count_reported_fails : ¬ CountReported ∧ countEdit .uint64 (.int64, .int 3) = 0 ∧ mapCountDb (some [(.uint32, .int 3)]) = some (-1, false) := by
  refine ⟨?_, by decide +kernel, by decide +kernel⟩
  intro h
  have := h .uint64 .int64 3 (by simp [CKind.Holds]) (by simp [Fits])
  revert this
  decide +kernel

/-- **C212 fails** for too many records: -1 says that a number does not fit an `atomic.Int32`, but not if the database
reports between 2^31 and 2^32 of them as an `int64`; a number that does not fit an unsigned counter is stored as zero. -/
theorem count_overflow_fails : countEdit .int32 (.int64, .int (2 ^ 32 + 3)) = -1 ∧ countEdit .int32 (.int64, .int (2 ^ 31 + 3)) = -2147483645 ∧
    countEdit .uint32 (.uint64, .int (2 ^ 32)) = 0 := by decide +kernel

/-- **C212 fails** for `Sum` in memory: it panics, whatever the record. -/
theorem mem_sum_fails (k : Kind) (f p : Nat) (n : Nat) (s : Store) : memOutput [.sum k f p] (n + 1) s = none := rfl

/-- **C212 fails** after an error of the database: `Count` answers 1. -/
theorem count_error_fails : mapCountDb none = some (1, true) := by decide +kernel

/-- **C212 fails** for a counter that is used twice: in memory counts add up, on a database the last one stays. -/
theorem count_twice_fails : ((memOutput [.count .int64 0] 2 fun _ => 10).map fun s => s 0) = some 12 ∧
    ((dbOutput [.count .int64 0] (some [(.uint64, .int 2)]) fun _ => 10).map fun r => r.1 0) = some 2 := by decide +kernel

/-! ### C213 -/

theorem readBack_ok : ∀ (xs : List Cell) (cols : List Col), cols.map (·.2) = xs.map (·.1) → (∀ x ∈ xs, ∃ k, tagOf k = x.1 ∧ Fits k x.2) →
    readBack (cols.map fun c => newPointerFor c.2) (xs.map (·.2)) = some xs := by
  intro xs
  induction xs with
  | nil => intro cols h _; cases cols with | nil => rfl | cons c cs => simp at h
  | cons x xs ih =>
    intro cols h hf
    cases cols with
    | nil => simp at h
    | cons c cs =>
      simp only [List.map_cons, List.cons.injEq] at h
      obtain ⟨k, k1, k2⟩ := hf x (by simp)
      rw [List.map_cons, List.map_cons, readBack, ih cs h.2 (fun x hx => hf x (List.mem_cons_of_mem _ hx)), h.1, ← k1, fits_new k _ k2]
      simp [k1]

mutual
theorem cells_fit : (t : Ty) → (v : Val) → HasTy t v → ∀ xs, valuesOf t v = some xs → ∀ x ∈ xs, ∃ k, tagOf k = x.1 ∧ Fits k x.2
  | .scalar k, .scalar a, h, xs, hx, x, hm => by
    rw [HasTy] at h
    rw [valuesOf, scalar_value h] at hx
    cases hx
    simp only [List.mem_singleton] at hm
    subst hm
    exact ⟨k, rfl, h⟩
  | .scalar _, .many _, h, _, _, _, _ => by simp [HasTy] at h
  | .unsupported, v, h, _, _, _, _ => by cases v <;> simp [HasTy] at h
  | .struct _, .scalar _, h, _, _, _, _ => by simp [HasTy] at h
  | .struct fs, .many vs, h, xs, hx, x, hm => by
    rw [HasTy] at h
    rw [valuesOf] at hx
    exact fields_fit fs vs h xs hx x hm
  | .array _ _, .scalar _, h, _, _, _, _ => by simp [HasTy] at h
  | .array n t, .many vs, h, xs, hx, x, hm => by
    rw [HasTy] at h
    rw [valuesOf, if_pos h.1] at hx
    replace h := h.2
    clear n
    induction vs generalizing xs with
    | nil => rw [valuesOfElems] at hx; cases hx; cases hm
    | cons v vs ih =>
      rw [valuesOfElems] at hx
      split at hx
      · rename_i a b ha hb
        cases hx
        rcases List.mem_append.mp hm with hm | hm
        · exact cells_fit t v (h v (by simp)) a ha x hm
        · exact ih b hb hm (fun v hv => h v (List.mem_cons_of_mem _ hv))
      · cases hx
theorem fields_fit : (fs : Fields) → (vs : List Val) → HaveTys fs vs → ∀ xs, valuesOfFields fs vs = some xs → ∀ x ∈ xs, ∃ k, tagOf k = x.1 ∧ Fits k x.2
  | .nil, [], _, xs, hx, x, hm => by rw [valuesOfFields] at hx; cases hx; cases hm
  | .nil, _ :: _, h, _, _, _, _ => by simp [HaveTys] at h
  | .cons _ _ _, [], h, _, _, _, _ => by simp [HaveTys] at h
  | .cons f t rest, v :: vs, h, xs, hx, x, hm => by
    rw [HaveTys] at h
    rw [valuesOfFields] at hx
    split at hx
    · split at hx
      · rename_i a b ha hb
        cases hx
        rcases List.mem_append.mp hm with hm | hm
        · exact cells_fit t v h.1 a ha x hm
        · exact fields_fit rest vs h.2 b hb x hm
      · cases hx
    · exact fields_fit rest vs h.2 xs hx x hm
end

/-- **C213.** A driver that stores the values it is given for a record and later scans them back with `NewResult` returns the
record: for every type of key and value built from scalars, structs and arrays with exported fields, `NewResult` does not
panic, returns the values that were stored, and the map reads the key and value from them. -/
theorem driver_round_trip (kt vt : Ty) (hk : Exported kt) (hv : Exported vt) (kn vn : Meta) (k v : Val) (tk : HasTy kt k) (tv : HasTy vt v) :
    ∃ ci cv i c, columnsOf kt [] kn = some ci ∧ columnsOf vt [] vn = some cv ∧ valuesOf kt k = some i ∧ valuesOf vt v = some c ∧
      ∀ table, newResult ci cv (fun _ => some ((i ++ c).map (·.2))) = some (some (i ++ c)) ∧ decodeRow ⟨table, ci, cv⟩ kt vt (i ++ c) = some (k, v) := by
  obtain ⟨i, a1, a2, a3⟩ := flatten_ty kt k hk tk
  obtain ⟨c, b1, b2, b3⟩ := flatten_ty vt v hv tv
  obtain ⟨ci, a4, a5⟩ := a3 [] kn
  obtain ⟨cv, b4, b5⟩ := b3 [] vn
  refine ⟨ci, cv, i, c, a4, b4, a1, b1, fun table => ⟨?_, ?_⟩⟩
  · have hr := readBack_ok (i ++ c) (ci ++ cv) (by rw [List.map_append, List.map_append, a5, b5]) (by
      intro x hx
      rcases List.mem_append.mp hx with hx | hx
      · exact cells_fit kt k tk i a1 x hx
      · exact cells_fit vt v tv c b1 x hx)
    rw [List.map_append] at hr
    rw [newResult]
    dsimp only
    rw [hr]
    rfl
  · have hl : ci.length = i.length := by simpa using congrArg List.length a5
    have e1 := a2 []
    have e2 := b2 []
    rw [List.append_nil] at e1 e2
    rw [decodeRow]
    dsimp only
    rw [hl, List.take_left, List.drop_left, e1, e2]

/-- A struct with a time, two numbers and a nested name. -/
def exRecord : Ty := .struct (.cons ⟨"Born".toList, [], [], true, false⟩ (.scalar .time) (.cons ⟨"Nums".toList, [], [], true, false⟩ (.array 2 (.scalar .uint))
  (.cons ⟨"Name".toList, [], [], true, false⟩ (.struct (.cons ⟨"First".toList, [], [], true, false⟩ (.scalar .string) .nil)) .nil)))

example : Exported exRecord ∧ HasTy exRecord (.many [.scalar (.opaque [1]), .many [.scalar (.int 4), .scalar (.int 0)], .many [.scalar (.opaque [65])]]) := by
  simp [exRecord, Exported, AllExported, HasTy, HaveTys, Fits]

/-- An error of the driver's scanner is reported, and nothing is read. -/
theorem scan_error_reported (index value : List Col) (calcs : List Calc) :
    newResult index value (fun _ => none) = some none ∧ newOutput calcs (fun _ => none) = some none := ⟨rfl, rfl⟩

end Verif.Sql.Stat
