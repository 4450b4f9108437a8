import Verif.Zgo.CompProps
/-!
# C202: maps with string keys
-/
namespace Verif.Zgo.Comp

variable {K V : Type} [DecidableEq K]

/-- The compiled program's state is that of Go's. -/
structure Agree (z : ZSt K V) (g : Spec.GoSt K V) : Prop where
  next : z.maps.length = g.next
  vars : z.vars = g.vars
  printed : z.printed = g.printed
  bound : ∀ x m, z.vars x = some m → m < z.maps.length
  maps : ∀ m es, z.maps[m]? = some es → (es.map Prod.fst).Nodup ∧ ∀ k, lookup es k = g.maps m k

theorem lookup_put (es : List (K × V)) (hn : (es.map Prod.fst).Nodup) (k : K) (v : V) (k' : K) :
    lookup (put es k v) k' = if k' = k then some v else lookup es k' := by
  apply Option.ext
  intro w
  rw [lookup_mem _ (put_nodup es k v hn), mem_put es k v hn]
  by_cases h : k' = k
  · simp [h, eq_comm]
  · simp only [if_neg h]
    exact (lookup_mem es hn k' w).symm

theorem lookup_literal (ps : List (K × V)) (k : K) : lookup (literal ps) k = Spec.entry (ps.map fun p => Elem.keyed p.1 p.2) k := by
  apply Option.ext
  intro w
  rw [lookup_mem _ (literal_spec ps).1, (literal_spec ps).2]

/-- A new map. -/
theorem agree_new (z : ZSt K V) (g : Spec.GoSt K V) (a : Agree z g) (x : Nat) (es : List (K × V)) (f : K → Option V)
    (hn : (es.map Prod.fst).Nodup) (hf : ∀ k, lookup es k = f k) :
    Agree { z with maps := z.maps ++ [es], vars := fun y => if y = x then some z.maps.length else z.vars y }
      { g with maps := fun m => if m = g.next then f else g.maps m, next := g.next + 1, vars := fun y => if y = x then some g.next else g.vars y } where
  next := by simp [a.next]
  vars := by simp only [a.next, a.vars]
  printed := a.printed
  bound := by
    intro y m h
    simp only [List.length_append, List.length_cons, List.length_nil] at h ⊢
    split at h
    · cases h; omega
    · have := a.bound y m h; omega
  maps := by
    intro m es' h
    simp only [List.getElem?_append] at h
    split at h
    · rename_i hlt
      have hne : m ≠ g.next := by rw [← a.next]; omega
      simp only [if_neg hne]
      exact a.maps m es' h
    · rename_i hge
      have hm : m = z.maps.length := by
        have := (List.getElem?_eq_some_iff.1 h).1
        simp at this
        omega
      subst hm
      simp only [Nat.sub_self, List.getElem?_cons_zero, Option.some.injEq] at h
      subst h
      simp only [a.next, if_true]
      exact ⟨hn, hf⟩

theorem agree_step (zero : V) (z : ZSt K V) (g : Spec.GoSt K V) (a : Agree z g) (o : Op K V) (ho : accepted o = true) :
    Agree (zstep zero z o) (Spec.step zero g o) := by
  cases o with
  | make x => exact agree_new z g a x [] (fun _ => none) (by simp) (fun _ => rfl)
  | literal x ps => exact agree_new z g a x (literal ps) _ (literal_spec ps).1 (lookup_literal ps)
  | share x y =>
    refine ⟨a.next, ?_, a.printed, ?_, a.maps⟩
    · simp only [zstep, Spec.step, a.vars]
    · intro w m h
      simp only [zstep] at h ⊢
      split at h
      · exact a.bound y m h
      · exact a.bound w m h
  | set x k v =>
    simp only [zstep, Spec.step, ← a.vars]
    cases hx : z.vars x with
    | none => exact a
    | some m =>
      dsimp only
      refine ⟨by simp [a.next], rfl, a.printed, ?_, ?_⟩
      · intro y m' h
        simpa using a.bound y m' h
      · intro m' es h
        dsimp only at h ⊢
        rw [List.getElem?_modify] at h
        obtain ⟨es', he', rfl⟩ := Option.map_eq_some_iff.1 h
        obtain ⟨h1, h2⟩ := a.maps m' es' he'
        by_cases hm : m = m'
        · subst hm
          rw [if_pos rfl]
          refine ⟨put_nodup _ _ _ h1, fun k' => ?_⟩
          rw [lookup_put _ h1]
          by_cases hk : k' = k
          · simp [hk]
          · simp [hk, h2 k']
        · rw [if_neg hm]
          refine ⟨h1, fun k' => ?_⟩
          rw [if_neg (fun h => hm h.1.symm)]
          exact h2 k'
  | get x k =>
    simp only [zstep, Spec.step, ← a.vars]
    cases hx : z.vars x with
    | none => exact a
    | some m =>
      dsimp only
      have hm := a.bound x m hx
      rw [List.getElem?_eq_getElem hm]
      dsimp only
      refine ⟨a.next, rfl, ?_, a.bound, a.maps⟩
      have := (a.maps m _ (List.getElem?_eq_getElem hm)).2 k
      simp only [a.printed, this]
      cases g.maps m k <;> rfl
  | _ => cases ho

/-- **C202** (partial): a program that makes maps, assigns to their elements, shares them and prints their elements prints what Go
says, the zero value for missing keys. -/
theorem maps_partial (zero : V) (ops : List (Op K V)) (h : ∀ o ∈ ops, accepted o = true) :
    (zrun zero ops).printed = (Spec.run zero ops).printed := by
  have : ∀ (ops : List (Op K V)) (z : ZSt K V) (g : Spec.GoSt K V), Agree z g → (∀ o ∈ ops, accepted o = true) →
      Agree (ops.foldl (zstep zero) z) (ops.foldl (Spec.step zero) g) := by
    intro ops
    induction ops with
    | nil => exact fun _ _ a _ => a
    | cons o ops ih =>
      intro z g a h
      exact ih _ _ (agree_step zero z g a o (h o (by simp))) (fun x hx => h x (by simp [hx]))
  exact (this ops _ _ ⟨rfl, rfl, rfl, by simp, by simp⟩ h).printed

/-- A map that two variables share. -/
example : (zrun 0 [.literal 0 [(1, 10), (2, 20)], .share 1 0, .set 1 2 21, .get 0 2, .get 0 3, .get 1 1] : ZSt Nat Nat).printed = [21, 0, 10] ∧
    (Spec.run 0 [.literal 0 [(1, 10), (2, 20)], .share 1 0, .set 1 2 21, .get 0 2, .get 0 3, .get 1 1] : Spec.GoSt Nat Nat).printed = [21, 0, 10] := by
  refine ⟨by decide, ?_⟩
  rw [← maps_partial 0 _ (by decide)]
  decide

/-- What a user relies on: programs with maps are accepted, and print what Go says. -/
def Spec.Maps : Prop := ∀ (ops : List (Op Nat Nat)), (∀ o ∈ ops, accepted o = true) ∧ (zrun 0 ops).printed = (Spec.run 0 ops).printed

/-- **C202** (refuted): declared maps, maps made with a size, `v, ok := m[k]`, `delete`, `clear`, `len` and `range` are refused. -/
theorem maps_fails : ¬ Spec.Maps := by
  intro h
  have := (h [.len 0]).1 (.len 0) (by simp)
  cases this

/-- **C202** (which): the operations that are accepted. -/
theorem maps_accepted_iff (o : Op K V) : accepted o = true ↔
    (∃ x, o = .make x) ∨ (∃ x ps, o = .literal x ps) ∨ (∃ x y, o = .share x y) ∨ (∃ x k v, o = .set x k v) ∨ (∃ x k, o = .get x k) := by
  cases o <;> simp [accepted]

end Verif.Zgo.Comp
