import Verif.Kvs.OpenSpec
import Verif.Kvs.Props

/-! # Opened key-value schemas: theorems (C207) -/
namespace Verif.Kvs.Open
open Verif.Sql (load store delete load_store)
variable {K V : Type} [DecidableEq K]

/-- The records of the format are those of the map `m`. -/
def Holds (db : Records K V) (format : Format) (m : List (K × V)) : Prop := ∀ k, load db (format, k) = load m k

theorem store_same {db : Records K V} {g : Format} {m : List (K × V)} (h : Holds db g m) (k : K) (v : V) :
    Holds (store db (g, k) v) g (store m k v) := by
  intro k'
  rw [load_store, load_store, h k']
  by_cases e : k' = k <;> simp [e]

theorem store_other {db : Records K V} {g f : Format} {m : List (K × V)} (h : Holds db g m) (hf : g ≠ f) (k : K) (v : V) :
    Holds (store db (f, k) v) g m := by
  intro k'
  rw [load_store, if_neg (by simp [hf]), h k']

theorem delete_same {db : Records K V} {g : Format} {m : List (K × V)} (h : Holds db g m) (k : K) :
    Holds (delete db (g, k)) g (delete m k) := by
  intro k'
  rw [load_delete', load_delete', h k']
  by_cases e : k' = k <;> simp [e]

theorem delete_other {db : Records K V} {g f : Format} {m : List (K × V)} (h : Holds db g m) (hf : g ≠ f) (k : K) :
    Holds (delete db (f, k)) g m := by
  intro k'
  rw [load_delete', if_neg (by simp [hf]), h k']

theorem inserts_same {g : Format} : ∀ (ps : List (K × V)) {db : Records K V} {m : List (K × V)}, Holds db g m →
    Holds (inserts g db ps) g (ps.foldl (fun m p => store m p.1 p.2) m) := by
  intro ps
  induction ps with
  | nil => intro db m h; exact h
  | cons p ps ih => intro db m h; exact ih (store_same h p.1 p.2)

theorem inserts_other {g f : Format} (hf : g ≠ f) : ∀ (ps : List (K × V)) {db : Records K V} {m : List (K × V)}, Holds db g m →
    Holds (inserts f db ps) g m := by
  intro ps
  induction ps with
  | nil => intro db m h; exact h
  | cons p ps ih => intro db m h; exact ih (store_other h hf p.1 p.2)

theorem deletes_same {g : Format} : ∀ (ks : List K) {db : Records K V} {m : List (K × V)}, Holds db g m →
    Holds (deletes g db ks) g (ks.foldl delete m) := by
  intro ks
  induction ks with
  | nil => intro db m h; exact h
  | cons k ks ih => intro db m h; exact ih (delete_same h k)

theorem deletes_other {g f : Format} (hf : g ≠ f) : ∀ (ks : List K) {db : Records K V} {m : List (K × V)}, Holds db g m →
    Holds (deletes f db ks) g m := by
  intro ks
  induction ks with
  | nil => intro db m h; exact h
  | cons k ks ih => intro db m h; exact ih (delete_other h hf k)

/-- What a call does to the map of its own format. -/
def next (m : List (K × V)) : Call K V → List (K × V)
  | .get _ => m
  | .set k v => memCommit m [(k, v)] []
  | .del k => memCommit m [] [k]
  | .commit _ order del => memCommit m order del

theorem call_same (zero : V) {db : Records K V} {g : Format} {m : List (K × V)} (h : Holds db g m) (c : Call K V) (hw : c.Wf) :
    Holds (callMap zero g db c).1 g (next m c) ∧ load (next m c) = (meantOne zero (load m) c).1 ∧
    (callMap zero g db c).2 = (meantOne zero (load m) c).2 := by
  cases c with
  | get k =>
    rw [callMap, h k]
    cases hk : load m k with
    | none => exact ⟨h, rfl, by simp [meantOne, hk]⟩
    | some v => exact ⟨h, rfl, by simp [meantOne, hk]⟩
  | set k v => exact ⟨deletes_same _ (inserts_same _ h), (runCall_refines zero m (.set k v) trivial), rfl⟩
  | del k => exact ⟨deletes_same _ (inserts_same _ h), (runCall_refines zero m (.del k) trivial), rfl⟩
  | commit ins order del => exact ⟨deletes_same _ (inserts_same _ h), commit_applies m ins order del hw.1 hw.2, rfl⟩

theorem call_other (zero : V) {db : Records K V} {g f : Format} (hf : g ≠ f) {m : List (K × V)} (h : Holds db g m) (c : Call K V) :
    Holds (callMap zero f db c).1 g m := by
  cases c with
  | get k =>
    rw [callMap]
    cases load db (f, k) <;> exact h
  | _ => exact deletes_other hf _ (inserts_other hf _ h)

/-- C207 for schemas whose exported maps have different tags: every map answers as a map of its own. Missing: maps with the
same tag or none (`own_maps_fails`). -/
theorem own_maps_partial (zero : V) (schema : List Field) (cs : List (Nat × Call K V))
    (hd : ∀ (i j : Nat) (f g : Field), schema[i]? = some f → schema[j]? = some g → f.exported = true → g.exported = true → f.isMap = true →
      g.isMap = true → f.tag = g.tag → i = j)
    (hc : ∀ c ∈ cs, c.2.Wf ∧ ∃ f, schema[c.1]? = some f ∧ f.exported = true ∧ f.isMap = true) :
    answers zero schema [] cs = meantAll zero (fun _ _ => none) cs := by
  have key : ∀ (cs : List (Nat × Call K V)) (db : Records K V) (ms : Nat → List (K × V)),
      (∀ c ∈ cs, c.2.Wf ∧ ∃ f, schema[c.1]? = some f ∧ f.exported = true ∧ f.isMap = true) →
      (∀ (i : Nat) (f : Field), schema[i]? = some f → f.exported = true → f.isMap = true → Holds db f.tag (ms i)) →
      answers zero schema db cs = meantAll zero (fun i => load (ms i)) cs := by
    intro cs
    induction cs with
    | nil => intro db ms _ _; rfl
    | cons x cs ih =>
      obtain ⟨i, c⟩ := x
      intro db ms hc hI
      obtain ⟨hw, f, hf, he, hm⟩ := hc (i, c) (by simp)
      have ho : callField zero schema db i c = callMap zero f.tag db c := by
        rw [callField, hf]; simp [opened, he, hm]
      obtain ⟨h1, h2, h3⟩ := call_same zero (hI i f hf he hm) c hw
      rw [answers, meantAll, ho, h3]
      congr 1
      rw [ih _ (fun j => if j = i then next (ms i) c else ms j) (fun c hc' => hc c (List.mem_cons_of_mem _ hc'))]
      · congr 1
        funext j
        by_cases e : j = i
        · simp only [e, if_true]; exact h2
        · simp only [e, if_false]
      · intro j g hg hge hgm
        by_cases e : j = i
        · subst e
          rw [hf] at hg
          cases hg
          simp only [if_true]; exact h1
        · simp only [e, if_false]
          exact call_other zero (fun ht => e (hd j i g f hg hf hge he hgm hm ht)) (hI j g hg hge hgm) c
  exact key cs [] (fun _ => []) hc (fun i f _ _ _ k => rfl)

/-- Two maps with tags. -/
def users : List Field := [⟨true, true, "users".toList⟩, ⟨true, true, "posts".toList⟩]

example : answers 0 users ([] : Records Nat Nat) [(0, .set 1 5), (1, .get 1), (0, .get 1)] = [.done, .value 0 false, .value 5 true] := by
  have := own_maps_partial (K := Nat) (V := Nat) 0 users [(0, .set 1 5), (1, .get 1), (0, .get 1)] (by
    intro i j f g hi hj _ _ _ _ ht
    match i, j with
    | 0, 0 => rfl
    | 1, 1 => rfl
    | 0, 1 => simp [users] at hi hj; subst hi hj; exact absurd ht (by decide)
    | 1, 0 => simp [users] at hi hj; subst hi hj; exact absurd ht (by decide)
    | i + 2, _ => simp [users] at hi
    | 0, j + 2 => simp [users] at hj
    | 1, j + 2 => simp [users] at hj) (by
    intro c hc
    simp only [List.mem_cons, List.not_mem_nil, or_false] at hc
    rcases hc with rfl | rfl | rfl
    · exact ⟨trivial, _, rfl, rfl, rfl⟩
    · exact ⟨trivial, _, rfl, rfl, rfl⟩
    · exact ⟨trivial, _, rfl, rfl, rfl⟩)
  rw [this]; decide

/-- C207 is false of maps without tags: what is put into one is found in the other. -/
theorem own_maps_fails : ¬ MapsAreTheirOwn := by
  intro h
  have := h 0 [⟨true, true, []⟩, ⟨true, true, []⟩] [(0, .set 1 5), (1, .get 1)] (by
    intro c hc
    simp only [List.mem_cons, List.not_mem_nil, or_false] at hc
    rcases hc with rfl | rfl <;> exact ⟨trivial, _, rfl, rfl, rfl⟩)
  revert this
  decide

/-- Fields with the same tag are one map: whatever the history, a call of one can be made of the other. -/
theorem same_tag_same_map (zero : V) (schema : List Field) (i j : Nat) (f g : Field) (hi : schema[i]? = some f)
    (hj : schema[j]? = some g) (he : f.exported = true ∧ g.exported = true) (hm : f.isMap = true ∧ g.isMap = true)
    (ht : f.tag = g.tag) (db : Records K V) (c : Call K V) :
    callField zero schema db i c = callField zero schema db j c := by
  rw [callField, callField, hi, hj]
  simp [opened, he.1, he.2, hm.1, hm.2, ht]

/-- The functions of a map whose field is not exported are never set: every call panics, and changes nothing. -/
theorem unexported_panics (zero : V) (schema : List Field) (i : Nat) (f : Field) (hi : schema[i]? = some f) (he : f.exported = false)
    (db : Records K V) (c : Call K V) : callField zero schema db i c = (db, .panic) := by
  rw [callField, hi]
  simp [opened, he]

example : [(⟨false, true, []⟩ : Field)][0]? = some ⟨false, true, []⟩ := rfl

end Verif.Kvs.Open
