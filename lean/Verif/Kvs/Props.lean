import Verif.Kvs.Spec
import Verif.Sql.Spec
import Verif.Sql.Lemmas
import Mathlib.Data.List.Nodup

/-! C25 and C58: key-value maps. -/
namespace Verif.Kvs
open Verif.Sql (load store delete load_store Visits)
variable {K V : Type} [DecidableEq K]

theorem load_delete' (m : List (K × V)) (k k' : K) : load (delete m k) k' = if k' = k then none else load m k' := by
  induction m with
  | nil => simp [delete, load]
  | cons p m ih =>
    obtain ⟨a, v⟩ := p
    simp only [delete]
    by_cases e : a = k
    · subst e
      rw [if_pos rfl, ih]
      by_cases e' : k' = a
      · rw [if_pos e', if_pos e']
      · rw [if_neg e', if_neg e', load, if_neg (fun h => e' h.symm)]
    · rw [if_neg e, load, load, ih]
      by_cases e' : a = k'
      · rw [if_pos e', if_pos e', if_neg (fun h => e (by rw [e', h]))]
      · rw [if_neg e', if_neg e']

theorem foldl_delete (ks : List K) : ∀ (m : List (K × V)) k, load (ks.foldl delete m) k = if k ∈ ks then none else load m k := by
  induction ks with
  | nil => intro m k; simp
  | cons a ks ih =>
    intro m k
    rw [List.foldl_cons, ih, load_delete']
    by_cases h1 : k ∈ ks <;> by_cases h2 : k = a <;> simp [h1, h2]

theorem find_none {ps : List (K × V)} {k : K} (h : k ∉ ps.map (·.1)) : ps.find? (fun p => p.1 = k) = none := by
  rw [List.find?_eq_none]
  intro p hp he
  exact h (List.mem_map.mpr ⟨p, hp, by simpa using he⟩)

theorem foldl_store (ps : List (K × V)) : ∀ (m : List (K × V)), (ps.map (·.1)).Nodup → ∀ k,
    load (ps.foldl (fun m p => store m p.1 p.2) m) k = match ps.find? (fun p => p.1 = k) with | some p => some p.2 | none => load m k := by
  induction ps with
  | nil => intro m _ k; rfl
  | cons p ps ih =>
    intro m hn k
    rw [List.map_cons, List.nodup_cons] at hn
    rw [List.foldl_cons, ih _ hn.2, List.find?_cons]
    by_cases e : p.1 = k
    · subst e
      rw [find_none hn.1]; simp [load_store]
    · simp only [decide_eq_false e]
      rw [load_store, if_neg (fun h => e h.symm)]

theorem find_perm {a b : List (K × V)} (h : a.Perm b) (hn : (b.map (·.1)).Nodup) (k : K) :
    a.find? (fun p => p.1 = k) = b.find? (fun p => p.1 = k) := by
  have key : ∀ (l : List (K × V)), (l.map (·.1)).Nodup → ∀ p, l.find? (fun p => p.1 = k) = some p ↔ p ∈ l ∧ p.1 = k := by
    intro l
    induction l with
    | nil => intro _ p; simp
    | cons x l ih =>
      intro hn p
      rw [List.map_cons, List.nodup_cons] at hn
      rw [List.find?_cons]
      by_cases e : x.1 = k
      · simp only [decide_eq_true e, Option.some.injEq, List.mem_cons]
        constructor
        · rintro rfl; exact ⟨.inl rfl, e⟩
        · rintro ⟨rfl | h1, h2⟩
          · rfl
          · exact absurd (List.mem_map.mpr ⟨p, h1, h2.trans e.symm⟩) hn.1
      · simp only [decide_eq_false e, ih hn.2, List.mem_cons]
        constructor
        · rintro ⟨h1, h2⟩; exact ⟨.inr h1, h2⟩
        · rintro ⟨rfl | h1, h2⟩
          · exact absurd h2 e
          · exact ⟨h1, h2⟩
  have hn' : (a.map (·.1)).Nodup := (h.map _).nodup_iff.mpr hn
  cases hb : b.find? (fun p => p.1 = k) with
  | some p => rw [key a hn']; exact ⟨h.mem_iff.mpr ((key b hn p).mp hb).1, ((key b hn p).mp hb).2⟩
  | none =>
    rw [List.find?_eq_none] at hb ⊢
    intro x hx; exact hb x (h.mem_iff.mp hx)

/-- C25. A commit to the in-memory map does to every key what the batch says, whatever the order in which the runtime
visits the batch's map. -/
theorem commit_applies (m ins order : List (K × V)) (del : List K) (hn : (ins.map (·.1)).Nodup) (ho : order.Perm ins) :
    load (memCommit m order del) = applied (load m) ins del := by
  funext k
  rw [memCommit, foldl_delete, applied, foldl_store order m ((ho.map _).nodup_iff.mpr hn), find_perm ho hn]; rfl

example : (([(1, 10), (2, 20)] : List (Nat × Nat)).map (·.1)).Nodup ∧ List.Perm [(2, 20), (1, 10)] ([(1, 10), (2, 20)] : List (Nat × Nat)) ∧
    load (memCommit [(1, 0), (3, 30)] [(2, 20), (1, 10)] [2]) 1 = some 10 := ⟨by decide, by decide, by decide⟩

theorem runCall_refines (zero : V) (m : List (K × V)) (c : Call K V) (hw : c.Wf) :
    load (runCall m c).1 = (meant zero (load m) c).1 := by
  cases c with
  | get k => rfl
  | set k v =>
    show load (memCommit m [(k, v)] []) = _
    rw [commit_applies m [(k, v)] [(k, v)] [] (by simp) (List.Perm.refl _)]
    funext k'
    by_cases e : k' = k
    · subst e; simp [applied, meant]
    · simp [applied, meant, e, Ne.symm e]
  | del k =>
    show load (memCommit m [] [k]) = _
    rw [commit_applies m [] [] [k] (by simp) (List.Perm.refl _)]
    funext k'
    simp [applied, meant]
  | commit ins order del => exact commit_applies m ins order del hw.1 hw.2

/-- C25 (partial: no `Get` of an absent key). Every history of `Get`, `Set`, `Del` and `Commit` on an in-memory map answers like a
mathematical map. -/
theorem kvs_is_a_map_partial (zero : V) (cs : List (Call K V)) (hw : ∀ c ∈ cs, c.Wf) (hg : GetsPresent (fun _ => none) cs) :
    results runCall [] cs = results (meant zero) (fun _ => none) cs := by
  have key : ∀ (cs : List (Call K V)) (m : List (K × V)), (∀ c ∈ cs, c.Wf) → GetsPresent (load m) cs →
      results runCall m cs = results (meant zero) (load m) cs := by
    intro cs
    induction cs with
    | nil => intro m _ _; rfl
    | cons c cs ih =>
      intro m hw hg
      have hr := runCall_refines zero m c (hw c (by simp))
      have hg' : GetsPresent (load (runCall m c).1) cs := by
        rw [hr]
        cases c with
        | get k => exact hg.2
        | set k v => exact hg
        | del k => exact hg
        | commit ins order del => exact hg
      rw [results, results, ih _ (fun c hc => hw c (List.mem_cons_of_mem _ hc)) hg', hr]
      congr 1
      cases c with
      | get k =>
        obtain ⟨v, hv⟩ := Option.isSome_iff_exists.mp hg.1
        simp [runCall, meant, memGet, memLookup, hv]
      | _ => rfl
  exact key cs [] hw hg

example : (∀ c ∈ ([.set 1 5, .commit [(1, 6), (2, 7)] [(2, 7), (1, 6)] [3], .get 1] : List (Call Nat Nat)), c.Wf) ∧
    GetsPresent (fun _ => none) ([.set 1 5, .commit [(1, 6), (2, 7)] [(2, 7), (1, 6)] [3], .get 1] : List (Call Nat Nat)) := by
  refine ⟨?_, ?_⟩
  · intro c hc
    simp only [List.mem_cons, List.not_mem_nil, or_false] at hc
    rcases hc with rfl | rfl | rfl
    · trivial
    · exact ⟨by decide, by decide⟩
    · trivial
  · exact ⟨by decide, trivial⟩

/-- C106 (partial: keys that are present). After any history, `Lookup` of a key that is present returns its value and true. -/
theorem lookup_present_partial (zero : V) (cs : List (Call K V)) (hw : ∀ c ∈ cs, c.Wf) (k : K) (v : V)
    (hv : cs.foldl (fun f c => (meant zero f c).1) (fun _ => none) k = some v) :
    memLookup (cs.foldl (fun m c => (runCall m c).1) []) k = .ret (v, true) := by
  have key : ∀ (cs : List (Call K V)) (m : List (K × V)), (∀ c ∈ cs, c.Wf) →
      load (cs.foldl (fun m c => (runCall m c).1) m) = cs.foldl (fun f c => (meant zero f c).1) (load m) := by
    intro cs
    induction cs with
    | nil => intro m _; rfl
    | cons c cs ih =>
      intro m hw
      rw [List.foldl_cons, List.foldl_cons, ih _ (fun c hc => hw c (List.mem_cons_of_mem _ hc)), runCall_refines zero m c (hw c (by simp))]
  have : load (cs.foldl (fun m c => (runCall m c).1) []) k = some v := by
    rw [key cs [] hw]; exact hv
  rw [memLookup, this]

example : ([.set 1 5, .set 2 6, .del 1, .set 2 7] : List (Call Nat Nat)).foldl (fun f c => (meant 0 f c).1) (fun _ => none) 2 = some 7 := by
  decide

/-- C25 is false for absent keys: `Get` and `Lookup` of an in-memory map panic. -/
theorem kvs_is_a_map_fails : ¬ KvsIsAMap := by
  intro h
  have := h 0 [.get 1] (by intro c hc; simp at hc; subst hc; trivial)
  simp [results, runCall, meant, memGet, memLookup, load] at this

/-- C25: with no key present every lookup panics. -/
theorem lookup_absent_panics (m : List (K × V)) (k : K) (h : load m k = none) : memLookup m k = .panic := by rw [memLookup, h]

example : load ([] : List (Nat × Nat)) 0 = none := rfl

theorem dbInserts_ok (oracle : Nat → Bool) : ∀ (ps : List (K × V)) (d : Db K V), (dbInserts oracle d ps).2 = false →
    (dbInserts oracle d ps).1.map = ps.foldl (fun m p => store m p.1 p.2) d.map := by
  intro ps
  induction ps with
  | nil => intro d _; rfl
  | cons p ps ih =>
    intro d h
    obtain ⟨k, v⟩ := p
    rw [dbInserts] at h ⊢
    by_cases ho : oracle d.calls = true
    · rw [if_pos ho] at h; cases h
    · rw [if_neg ho] at h ⊢; exact ih _ h

theorem dbDeletes_ok (oracle : Nat → Bool) : ∀ (ks : List K) (d : Db K V), (dbDeletes oracle d ks).2 = false →
    (dbDeletes oracle d ks).1.map = ks.foldl delete d.map := by
  intro ks
  induction ks with
  | nil => intro d _; rfl
  | cons k ks ih =>
    intro d h
    rw [dbDeletes] at h ⊢
    by_cases ho : oracle d.calls = true
    · rw [if_pos ho] at h; cases h
    · rw [if_neg ho] at h ⊢; exact ih _ h

theorem dbInserts_pre (oracle : Nat → Bool) : ∀ (ps : List (K × V)) (d : Db K V),
    ∃ n, (dbInserts oracle d ps).1.map = (ps.take n).foldl (fun m p => store m p.1 p.2) d.map := by
  intro ps
  induction ps with
  | nil => intro d; exact ⟨0, rfl⟩
  | cons p ps ih =>
    intro d
    obtain ⟨k, v⟩ := p
    rw [dbInserts]
    by_cases ho : oracle d.calls = true
    · rw [if_pos ho]; exact ⟨0, rfl⟩
    · rw [if_neg ho]
      obtain ⟨n, hn⟩ := ih ⟨store d.map k v, d.calls + 1⟩
      exact ⟨n + 1, hn⟩

theorem dbDeletes_pre (oracle : Nat → Bool) : ∀ (ks : List K) (d : Db K V),
    ∃ n, (dbDeletes oracle d ks).1.map = (ks.take n).foldl delete d.map := by
  intro ks
  induction ks with
  | nil => intro d; exact ⟨0, rfl⟩
  | cons k ks ih =>
    intro d
    rw [dbDeletes]
    by_cases ho : oracle d.calls = true
    · rw [if_pos ho]; exact ⟨0, rfl⟩
    · rw [if_neg ho]
      obtain ⟨n, hn⟩ := ih ⟨delete d.map k, d.calls + 1⟩
      exact ⟨n + 1, hn⟩

/-- C58. A commit to a database that reports no error did the whole batch, whichever calls fail and in whatever order the
runtime visits the batch's map. -/
theorem db_commit_applies (oracle : Nat → Bool) (d : Db K V) (ins order : List (K × V)) (del : List K) (hn : (ins.map (·.1)).Nodup) (ho : order.Perm ins)
    (h : (dbCommit oracle d order del).2 = false) : load (dbCommit oracle d order del).1.map = applied (load d.map) ins del := by
  rw [← commit_applies d.map ins order del hn ho, memCommit]
  unfold dbCommit at h ⊢
  have h1 := dbInserts_ok oracle order d
  generalize dbInserts oracle d order = r at h h1 ⊢
  obtain ⟨d', b⟩ := r
  cases b with
  | true => cases h
  | false => rw [dbDeletes_ok oracle del d' h, h1 rfl]

example : (([(1, 10)] : List (Nat × Nat)).map (·.1)).Nodup ∧ (dbCommit (fun n => n == 7) (⟨[(2, 5)], 0⟩ : Db Nat Nat) [(1, 10)] [2]).2 = false := ⟨by decide, by decide⟩

/-- C58. A commit that fails half-way leaves each key either as it was or as the batch says it should at some point be: its
old value, the value inserted for it, or (for a key to delete) absent; keys outside the batch are unchanged. -/
theorem db_commit_touches_only_batch (oracle : Nat → Bool) (d : Db K V) (order : List (K × V)) (del : List K) (hn : (order.map (·.1)).Nodup) (k : K) :
    load (dbCommit oracle d order del).1.map k = load d.map k ∨
    (∃ v, (k, v) ∈ order ∧ load (dbCommit oracle d order del).1.map k = some v) ∨
    (k ∈ del ∧ load (dbCommit oracle d order del).1.map k = none) := by
  have ins : ∀ n, load ((order.take n).foldl (fun m p => store m p.1 p.2) d.map) k = load d.map k ∨
      ∃ v, (k, v) ∈ order ∧ load ((order.take n).foldl (fun m p => store m p.1 p.2) d.map) k = some v := by
    intro n
    rw [foldl_store _ _ (by rw [List.map_take]; exact hn.sublist (List.take_sublist _ _))]
    cases hf : (order.take n).find? (fun p => p.1 = k) with
    | none => exact .inl rfl
    | some p =>
      right
      have h1 := List.mem_of_find?_eq_some hf
      have h2 : p.1 = k := by simpa using List.find?_some hf
      refine ⟨p.2, ?_, rfl⟩
      rw [← h2]; exact (List.take_sublist _ _).subset h1
  unfold dbCommit
  obtain ⟨n, hn'⟩ := dbInserts_pre oracle order d
  generalize dbInserts oracle d order = r at hn' ⊢
  obtain ⟨d', b⟩ := r
  cases b with
  | true =>
    dsimp only at hn' ⊢
    rw [hn']
    rcases ins n with h | h
    · exact .inl h
    · exact .inr (.inl h)
  | false =>
    dsimp only at hn' ⊢
    obtain ⟨j, hj⟩ := dbDeletes_pre oracle del d'
    rw [hj, foldl_delete, hn']
    by_cases hm : k ∈ del.take j
    · rw [if_pos hm]; exact .inr (.inr ⟨(List.take_sublist _ _).subset hm, rfl⟩)
    · rw [if_neg hm]
      rcases ins n with h | h
      · exact .inl h
      · exact .inr (.inl h)

example : (dbCommit (fun n => n == 1) (⟨[(2, 5)], 0⟩ : Db Nat Nat) [(1, 10), (3, 4)] [2]).2 = true ∧
    load (dbCommit (fun n => n == 1) (⟨[(2, 5)], 0⟩ : Db Nat Nat) [(1, 10), (3, 4)] [2]).1.map 1 = some 10 := ⟨by decide, by decide⟩

/-- C58. Reading from a database: absence is reported, with the zero value. -/
theorem db_lookup (oracle : Nat → Bool) (d : Db K V) (zero : V) (k : K) (h : oracle d.calls = false) :
    (dbLookup oracle d zero k).2 = some ((load d.map k).getD zero, (load d.map k).isSome) := by
  rw [dbLookup, h]
  cases load d.map k <;> rfl

example : (fun n => n == 3) (⟨[(2, 5)], 0⟩ : Db Nat Nat).calls = false := rfl

theorem memValues_all (m : List (K × V)) : ∀ (order : List K) sofar,
    memValues m order (fun _ => true) sofar = sofar ++ order.filterMap fun k => (load m k).map (k, ·) := by
  intro order
  induction order with
  | nil => intro sofar; simp [memValues]
  | cons k ks ih =>
    intro sofar
    rw [memValues]
    cases h : load m k with
    | none => simp [ih, h]
    | some v => simp [ih, h]

/-- C59. Ranging over all values of an in-memory map to the end yields every record, and each once. -/
theorem values_exact (m : List (K × V)) (order : List K) (hv : Visits m order) :
    (memValues m order (fun _ => true) []).Nodup ∧ ∀ k v, (k, v) ∈ memValues m order (fun _ => true) [] ↔ load m k = some v := by
  rw [memValues_all, List.nil_append]
  constructor
  · refine List.Nodup.filterMap ?_ hv.1
    intro a b p ha hb
    simp only [Option.mem_def, Option.map_eq_some_iff] at ha hb
    obtain ⟨_, _, rfl⟩ := ha
    obtain ⟨_, _, e⟩ := hb
    exact (congrArg Prod.fst e).symm
  · intro k v
    rw [List.mem_filterMap]
    constructor
    · rintro ⟨a, _, ha⟩
      rw [Option.map_eq_some_iff] at ha
      obtain ⟨w, h1, h2⟩ := ha
      injection h2 with h2 h3; subst h2; subst h3; exact h1
    · intro h
      exact ⟨k, (hv.2 k).mpr (by rw [h]; rfl), by rw [h]; rfl⟩

/-- C59. Stopping early loses nothing that was already yielded: the pairs are a prefix of what the whole range yields. -/
theorem values_prefix (m : List (K × V)) (order : List K) (c : List (K × V) → Bool) :
    memValues m order c [] <+: memValues m order (fun _ => true) [] := by
  have key : ∀ (order : List K) sofar, memValues m order c sofar <+: memValues m order (fun _ => true) sofar := by
    intro order
    induction order with
    | nil => intro _; exact List.prefix_refl _
    | cons k ks ih =>
      intro sofar
      rw [memValues, memValues]
      split
      · exact ih _
      · rename_i v _
        split
        · exact ih _
        · rw [if_pos rfl, memValues_all]; exact List.prefix_append _ _
  exact key order []

example : Visits ([(1, 10), (2, 20)] : List (Nat × Nat)) [2, 1] := by
  refine ⟨by decide, ?_⟩
  intro k
  by_cases h1 : k = 1
  · subst h1; decide
  · by_cases h2 : k = 2
    · subst h2; decide
    · simp [load, h1, h2, Ne.symm h1, Ne.symm h2]

end Verif.Kvs
