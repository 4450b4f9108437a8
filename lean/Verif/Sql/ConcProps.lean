import Verif.Sql.ConcLemmas
import Mathlib.Data.List.Permutation
import Mathlib.Data.List.Nodup
import Mathlib.Data.List.Range

/-! C57: concurrent calls on the in-memory database. -/
namespace Verif.Sql
variable {K V : Type} [DecidableEq K]

theorem expl_explains {s : CSt K V} (hd : AllReturned s) : ∀ (l : List Nat) f, Expl s f l → Explains s f l := by
  intro l
  induction l with
  | nil => intro f _; trivial
  | cons t l ih =>
    rintro f ⟨c, h1, h2, h3⟩
    refine ⟨c, h1, ?_, ih _ h3⟩
    have hlt : t < s.callers.length := by
      rcases Nat.lt_or_ge t s.callers.length with hi | hi
      · exact hi
      · rw [List.getElem?_eq_none hi] at h1; cases h1
    obtain ⟨a, op, ha⟩ := hd t hlt
    rw [h1] at ha; injection ha with ha; subst ha
    have : a = (onMap f op).2 := by injection h2
    exact ⟨op, by rw [h1, this]⟩

theorem order_perm {s : CSt K V} (h : CInv s) (hd : AllReturned s) : s.log.Perm (List.range s.callers.length) := by
  refine (List.perm_ext_iff_of_nodup h.nodup List.nodup_range).mpr ?_
  intro t
  rw [h.logged, List.mem_range]
  constructor
  · rintro ⟨c, h1, _⟩
    rcases Nat.lt_or_ge t s.callers.length with hi | hi
    · exact hi
    · rw [List.getElem?_eq_none hi] at h1; cases h1
  · intro hlt
    obtain ⟨a, op, ha⟩ := hd t hlt
    exact ⟨_, ha, rfl⟩

/-- C57 (partial: no upserts). However the steps of concurrent calls interleave, when all have returned there is an order
of the calls that explains all answers and the final map, and in which a call that had returned before another was made
comes first. -/
theorem concurrent_calls_atomic_partial (as : List (CAct K V)) (hn : NoUpsert as) (hd : AllReturned (crun as)) :
    ∃ order, Serial (crun as) order ∧
      ∀ pre post t₁ t₂ a, as = pre ++ post → Answered (crun pre) t₁ a → (crun pre).callers.length ≤ t₂ → t₂ < (crun as).callers.length →
        order.idxOf t₁ < order.idxOf t₂ := by
  have hi := cinv_run as hn
  have hp := order_perm hi hd
  refine ⟨(crun as).log, ⟨hp, expl_explains hd _ _ hi.expl, hi.lin⟩, ?_⟩
  intro pre post t₁ t₂ a e h1 h2 h3
  have hpi := cinv_run pre (fun x hx => hn x (by rw [e]; exact List.mem_append_left _ hx))
  obtain ⟨op, h1⟩ := h1
  have m1 : t₁ ∈ (crun pre).log := (hpi.logged t₁).mpr ⟨_, h1, rfl⟩
  have m2 : t₂ ∉ (crun pre).log := by
    intro hm
    obtain ⟨c, hc, _⟩ := (hpi.logged t₂).mp hm
    rw [List.getElem?_eq_none h2] at hc; cases hc
  obtain ⟨rest, hr⟩ := crun_log pre post
  rw [e, ← hr, List.idxOf_append_of_mem m1, List.idxOf_append_of_notMem m2]
  have := List.idxOf_lt_length_of_mem m1
  omega

/-- Two concurrent increments with a deletion that refuses, interleaved: hypotheses hold, the value is 7. -/
def atomicExample : List (CAct Nat Nat) :=
  [.call (.insert 0 false 5), .run 0, .call (.mutate 0 none (· + 1)), .call (.mutate 0 none (· + 1)), .call (.delete 0 (some fun v => [v == 9])),
   .run 1, .run 2, .run 1, .run 3, .run 1, .run 2, .run 1, .run 2, .run 3, .run 2, .run 2, .run 2, .run 3, .run 3, .run 3]

example : NoUpsert atomicExample ∧ AllReturned (crun atomicExample) ∧ load (crun atomicExample).map 0 = some 7 := by
  refine ⟨?_, ?_, rfl⟩
  · intro a ha k v e
    simp only [atomicExample, List.mem_cons, List.not_mem_nil, or_false] at ha
    rcases ha with rfl | rfl | rfl | rfl | rfl | rfl | rfl | rfl | rfl | rfl | rfl | rfl | rfl | rfl | rfl | rfl | rfl | rfl | rfl | rfl <;> simp at e
  · intro t ht
    have ht : t < 4 := ht
    rcases t with _ | _ | _ | _ | t
    · exact ⟨_, _, rfl⟩
    · exact ⟨_, _, rfl⟩
    · exact ⟨_, _, rfl⟩
    · exact ⟨_, _, rfl⟩
    · omega

/-- An upsert between the read and the write of an increment. -/
def lostUpsert : List (CAct Nat Nat) :=
  [.call (.insert 0 false 1), .run 0, .call (.mutate 0 none (· + 1)), .run 1, .run 1, .call (.insert 0 true 10), .run 2, .run 1, .run 1]

/-- C57 is false with upserts, which do not take the mutex: here the upsert returns without error and no order explains
that the increment does not see its value and yet does not lose its own. -/
theorem concurrent_calls_atomic_fails : AllReturned (crun lostUpsert) ∧ load (crun lostUpsert).map 0 = some 2 ∧ ∀ order, ¬ Serial (crun lostUpsert) order := by
  refine ⟨?_, rfl, ?_⟩
  · intro t ht
    have ht : t < 3 := ht
    rcases t with _ | _ | _ | t
    · exact ⟨_, _, rfl⟩
    · exact ⟨_, _, rfl⟩
    · exact ⟨_, _, rfl⟩
    · omega
  · rintro order ⟨hp, hx, hr⟩
    have hp : order.Perm [0, 1, 2] := hp
    have hm := List.mem_permutations'.mpr hp
    have hr := congrFun hr 0
    have c0 : (crun lostUpsert).callers[0]? = some ⟨.insert 0 false 1, .done (.error none)⟩ := rfl
    have c1 : (crun lostUpsert).callers[1]? = some ⟨.mutate 0 none (· + 1), .done (.did true)⟩ := rfl
    have c2 : (crun lostUpsert).callers[2]? = some ⟨.insert 0 true 10, .done (.error none)⟩ := rfl
    have hl : load (crun lostUpsert).map 0 = some 2 := rfl
    rw [hl] at hr
    generalize crun lostUpsert = s at *
    have e : List.permutations' [0, 1, 2] = [[0, 1, 2], [1, 0, 2], [1, 2, 0], [0, 2, 1], [2, 0, 1], [2, 1, 0]] := rfl
    rw [e] at hm
    simp only [List.mem_cons, List.not_mem_nil, or_false] at hm
    rcases hm with rfl | rfl | rfl | rfl | rfl | rfl <;>
      simp [Explains, Answered, replay, c0, c1, c2, onMap, PMap.set, Passes] at hx hr

end Verif.Sql
