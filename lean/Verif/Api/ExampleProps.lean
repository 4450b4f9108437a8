import Verif.Api.ExampleModel
/-!
# C222, C223: examples record what they do, and are tested
-/
namespace Verif.Api.Example
open Verif.Api

/-! ## Specification -/

mutual
/-- The calls that returned, in the order in which they did: with how many calls are around each of them, and whether it
is in a setup. -/
def returned {V : Type} (around : Nat) (inSetup : Bool) : Acts V → List (Call V)
  | .nil => []
  | .cons a rest => returnedBy around inSetup a ++ returned around inSetup rest
/-- The same for one action. -/
def returnedBy {V : Type} (around : Nat) (inSetup : Bool) : Act V → List (Call V)
  | .guide _ => []
  | .setup inner => returned around true inner
  | .call fn args inner result =>
    returned (around + 1) inSetup inner ++
      match result with
      | none => []
      | some (vals, err) => [⟨fn, args, vals, err, around + 1, inSetup⟩]
end

mutual
/-- There is no setup in a setup. -/
def Simple {V : Type} (inSetup : Bool) : Acts V → Prop
  | .nil => True
  | .cons a rest => SimpleAct inSetup a ∧ Simple inSetup rest
/-- The same for one action. -/
def SimpleAct {V : Type} (inSetup : Bool) : Act V → Prop
  | .guide _ => True
  | .setup inner => inSetup = false ∧ Simple true inner
  | .call _ _ inner _ => Simple inSetup inner
end

/-- What an example that makes no calls inside of calls does: notes, and calls that return. -/
inductive Line (V : Type) where
  | note (text : Str)
  | call (fn : Nat) (args vals : List V) (err : Option V)

/-- The lines as the actions of an example. -/
def acts {V : Type} : List (Line V) → Acts V
  | [] => .nil
  | .note t :: ls => .cons (.guide t) (acts ls)
  | .call fn args vals err :: ls => .cons (.call fn args .nil (some (vals, err))) (acts ls)

/-- The steps as they should be shown: a call comes with the note before it. -/
def shown {V : Type} : List (Line V) → List (Step V)
  | [] => []
  | .note t :: .call fn args vals err :: ls => ⟨t, some ⟨fn, args, vals, err, 1, false⟩⟩ :: shown ls
  | .note t :: ls => ⟨t, none⟩ :: shown ls
  | .call fn args vals err :: ls => ⟨[], some ⟨fn, args, vals, err, 1, false⟩⟩ :: shown ls

/-! ## Lemmas -/

theorem guide_calls {V : Type} (t : Str) (ss : List (Step V)) :
    (guide t ss).filterMap (·.call) = ss.filterMap (·.call) := by
  unfold guide
  split
  · rfl
  · split <;> simp [List.filterMap_cons]

theorem record_calls {V : Type} (c : Call V) (ss : List (Step V)) :
    (record c ss).filterMap (·.call) = ss.filterMap (·.call) ++ [c] := by
  induction ss using record.induct with
  | case1 => rfl
  | case2 last h => simp [record, h]
  | case3 last _ h => simp [record, h]
  | case4 s t rest ih =>
    rw [record, List.filterMap_cons, List.filterMap_cons (l := t :: rest), ih]
    cases s.call <;> simp

mutual
theorem runs_calls {V : Type} : ∀ (a : Acts V) (st : State V), Simple st.setup a →
    (runs a st).steps.filterMap (·.call) = st.steps.filterMap (·.call) ++ returned st.depth st.setup a ∧
      (runs a st).depth = st.depth ∧ (runs a st).setup = st.setup
  | .nil, st, _ => by simp [runs, returned]
  | .cons a rest, st, h => by
    obtain ⟨h1, h2, h3⟩ := run_calls a st h.1
    have hr : Simple (run a st).setup rest := by rw [h3]; exact h.2
    obtain ⟨g1, g2, g3⟩ := runs_calls rest (run a st) hr
    refine ⟨?_, ?_, ?_⟩
    · rw [runs, g1, h1, h2, h3, returned, List.append_assoc]
    · rw [runs, g2, h2]
    · rw [runs, g3, h3]
theorem run_calls {V : Type} : ∀ (a : Act V) (st : State V), SimpleAct st.setup a →
    (run a st).steps.filterMap (·.call) = st.steps.filterMap (·.call) ++ returnedBy st.depth st.setup a ∧
      (run a st).depth = st.depth ∧ (run a st).setup = st.setup
  | .guide t, st, _ => by simp [run, returnedBy, guide_calls]
  | .setup inner, st, h => by
    obtain ⟨h1, h2, h3⟩ := runs_calls inner { st with setup := true } h.2
    refine ⟨?_, ?_, ?_⟩
    · simpa [run, returnedBy] using h1
    · simpa [run] using h2
    · simp [run, h.1]
  | .call fn args inner none, st, h => by
    obtain ⟨h1, h2, h3⟩ := runs_calls inner { st with depth := st.depth + 1 } h
    refine ⟨?_, ?_, ?_⟩
    · simpa [run, returnedBy] using h1
    · simp [run, h2]
    · simp [run, h3]
  | .call fn args inner (some (vals, err)), st, h => by
    obtain ⟨h1, h2, h3⟩ := runs_calls inner { st with depth := st.depth + 1 } h
    refine ⟨?_, ?_, ?_⟩
    · simp only [run, returnedBy, record_calls, h1, h2, h3, List.append_assoc]
    · simp [run, h2]
    · simp [run, h3]
end

/-! ## C222 -/

/-- The steps of an example are the calls it made that returned, each with its arguments, results and error, in the order
in which they returned, how deep they were and whether they were part of a setup. (`_partial`: for examples without setups
in setups; which notes they come with is in `notes_partial`.) -/
theorem steps_partial {V : Type} (a : Acts V) (h : Simple false a) :
    (steps a).filterMap (·.call) = returned 0 false a := by
  have := (runs_calls a ⟨[], 0, false⟩ h).1
  simpa [steps] using this

/-- A setup, a call with another inside of it, one that panics. -/
def tree : Acts Nat :=
  .cons (.setup (.cons (.call 1 [4] .nil (some ([5], none))) .nil))
    (.cons (.call 2 [] (.cons (.call 3 [] .nil none) (.cons (.call 4 [] .nil (some ([], some 7))) .nil)) (some ([6], none))) .nil)

example : Simple false tree ∧ (steps tree).filterMap (·.call) =
      [⟨1, [4], [5], none, 1, true⟩, ⟨4, [], [], some 7, 2, false⟩, ⟨2, [], [6], none, 1, false⟩] := by
  simp [tree, Simple, SimpleAct, steps, runs, run, record]

theorem record_end {V : Type} (c : Call V) (ss : List (Step V)) (t : Step V) (h : t.call = none) :
    record c (ss ++ [t]) = ss ++ [{ t with call := some c }] := by
  induction ss with
  | nil => simp [record, h]
  | cons s ss ih =>
    cases ss with
    | nil => simpa [record] using ih
    | cons s' ss => rw [List.cons_append, List.cons_append, record, ← List.cons_append, ih]; rfl

theorem record_new {V : Type} (c : Call V) (ss : List (Step V)) (h : ∀ t, ss.getLast? = some t → t.call ≠ none) :
    record c ss = ss ++ [⟨[], some c⟩] := by
  induction ss using record.induct with
  | case1 => rfl
  | case2 last h' => exact absurd h' (h last rfl)
  | case3 last _ h' => simp [record, h']
  | case4 s t rest ih =>
    rw [record, ih (by intro x hx; exact h x (by simpa [List.getLast?_cons_cons] using hx))]
    rfl

/-- A note that waits for its call. -/
def waiting {V : Type} : Option Str → List (Step V)
  | none => []
  | some t => [⟨t, none⟩]

/-- The line of a note that waits for its call. -/
def waitingLine {V : Type} : Option Str → List (Line V)
  | none => []
  | some t => [.note t]

theorem lines_shown {V : Type} : ∀ (ls : List (Line V)) (st : State V) (base : List (Step V)) (pend : Option Str),
    st.depth = 0 → st.setup = false → (∀ t, Line.note t ∈ ls → t ≠ []) → st.steps = base ++ waiting pend →
    (pend = none → ∀ x, base.getLast? = some x → x.call ≠ none) →
    ((∃ s ss, st.steps = s :: ss ∧ s.note ≠ []) ∨ ∀ t, Line.note t ∉ ls) →
    (runs (acts ls) st).steps = base ++ shown (waitingLine pend ++ ls)
  | [], st, base, pend, _, _, _, e, _, _ => by
    cases pend <;> simp [acts, runs, shown, e, waiting, waitingLine]
  | .note t :: ls, st, base, pend, hd, hs, hn, e, hl, hf => by
    obtain ⟨s, ss, e', hne⟩ := hf.resolve_right fun h => h t (by simp)
    have hg : guide t st.steps = st.steps ++ [⟨t, none⟩] := by simp [guide, e', hne]
    have hsteps : (run (.guide t) st).steps = st.steps ++ [⟨t, none⟩] := hg
    have hfirst : ∃ s ss, (run (.guide t) st).steps = s :: ss ∧ s.note ≠ [] :=
      ⟨s, ss ++ [⟨t, none⟩], by rw [hsteps, e']; rfl, hne⟩
    rw [acts, runs]
    cases pend with
    | none =>
      have ih := lines_shown ls (run (.guide t) st) base (some t) hd hs (fun t ht => hn t (by simp [ht]))
        (by rw [hsteps, e]; simp [waiting]) (by simp) (.inl hfirst)
      rw [ih]
      rfl
    | some t0 =>
      have ih := lines_shown ls (run (.guide t) st) (base ++ [⟨t0, none⟩]) (some t) hd hs
        (fun t ht => hn t (by simp [ht])) (by rw [hsteps, e]; simp [waiting]) (by simp) (.inl hfirst)
      rw [ih]
      show _ = base ++ shown (Line.note t0 :: Line.note t :: ls)
      rw [shown]
      · simp [waitingLine]
      · simp
  | .call fn args vals err :: ls, st, base, pend, hd, hs, hn, e, hl, hf => by
    have hsteps : (run (.call fn args .nil (some (vals, err))) st).steps =
        record ⟨fn, args, vals, err, 1, false⟩ st.steps := by
      simp [run, runs, hd, hs]
    have next : ∀ base', record ⟨fn, args, vals, err, 1, false⟩ st.steps = base' →
        (∀ x, base'.getLast? = some x → x.call ≠ none) →
        ((∃ s ss, base' = s :: ss ∧ s.note ≠ []) ∨ ∀ t, Line.note t ∉ ls) →
        (runs (acts (.call fn args vals err :: ls)) st).steps = base' ++ shown ls := by
      intro base' hb hx hf'
      rw [acts, runs]
      exact lines_shown ls (run (.call fn args .nil (some (vals, err))) st) base' none (by simp [run, runs, hd])
        (by simp [run, runs, hs]) (fun t ht => hn t (by simp [ht])) (by rw [hsteps, hb]; simp [waiting])
        (fun _ => hx) (by rw [hsteps, hb]; exact hf')
    have keep : ∀ (b c : List (Step V)) (x y : Step V), x.note = y.note →
        (∃ s ss, b ++ [x] = s :: ss ∧ s.note ≠ []) → ∃ s ss, b ++ [y] = s :: ss ∧ s.note ≠ [] := by
      rintro (_ | ⟨b0, b⟩) _ x y hxy ⟨s, ss, h1, h2⟩
      · simp at h1
        exact ⟨y, [], rfl, by rw [← hxy, h1.1]; exact h2⟩
      · simp at h1
        exact ⟨b0, _, rfl, by rw [h1.1]; exact h2⟩
    cases pend with
    | none =>
      simp only [waiting, List.append_nil] at e
      have hrec := record_new ⟨fn, args, vals, err, 1, false⟩ base (hl rfl)
      rw [next (base ++ [⟨[], some ⟨fn, args, vals, err, 1, false⟩⟩]) (by rw [e]; exact hrec) (by simp) (by
        rcases hf with ⟨s, ss, h1, h2⟩ | hf
        · exact .inl ⟨s, ss ++ [⟨[], some ⟨fn, args, vals, err, 1, false⟩⟩], by rw [← e, h1]; rfl, h2⟩
        · exact .inr fun t ht => hf t (by simp [ht]))]
      simp [waitingLine, shown]
    | some t =>
      simp only [waiting] at e
      have hrec := record_end ⟨fn, args, vals, err, 1, false⟩ base ⟨t, none⟩ rfl
      rw [next (base ++ [⟨t, some ⟨fn, args, vals, err, 1, false⟩⟩]) (by rw [e]; exact hrec) (by simp) (by
        rcases hf with ⟨s, ss, h1, h2⟩ | hf
        · exact .inl (keep base [] ⟨t, none⟩ ⟨t, some ⟨fn, args, vals, err, 1, false⟩⟩ rfl ⟨s, ss, by rw [← e, h1], h2⟩)
        · exact .inr fun t ht => hf t (by simp [ht]))]
      simp [waitingLine, shown]

/-- Every call comes with the note that was given before it, and a note that no call follows is a step of its own.
(`_partial`: for examples whose calls make no traced calls, that begin with a note or have none.) -/
theorem notes_partial {V : Type} (ls : List (Line V)) (hn : ∀ t, Line.note t ∈ ls → t ≠ [])
    (hf : (∃ t, ls.head? = some (.note t)) ∨ ∀ t, Line.note t ∉ ls) : steps (acts ls) = shown ls := by
  have key := fun h => lines_shown ls ⟨[], 0, false⟩ [] none rfl rfl hn rfl (by simp) h
  rcases hf with ⟨t, ht⟩ | hf
  · cases ls with
    | nil => rfl
    | cons l ls =>
      simp at ht
      subst ht
      have hne := hn t (by simp)
      have := lines_shown ls ⟨[⟨t, none⟩], 0, false⟩ [] (some t) rfl rfl (fun t ht => hn t (by simp [ht])) rfl (by simp)
        (.inl ⟨_, _, rfl, hne⟩)
      simpa [steps, acts, runs, run, guide, waitingLine] using this
  · simpa [waitingLine, steps] using key (.inr hf)

example : steps (acts [.note ['a'], .call 1 [2] [3] none, .call 4 [] [] (some 5), .note ['b'], .note ['c'], .call 6 [] [] none])
    = [⟨['a'], some ⟨1, [2], [3], none, 1, false⟩⟩, ⟨[], some ⟨4, [], [], some 5, 1, false⟩⟩, ⟨['b'], none⟩,
      ⟨['c'], some ⟨6, [], [], none, 1, false⟩⟩] :=
  notes_partial _ (by simp) (.inl ⟨_, rfl⟩)

/-- A note after the first call, if that has none, goes to the call before it. -/
theorem notes_fails {V : Type} (t : Str) (ht : t ≠ []) (f g : Nat) (a b : List V) :
    steps (acts [.call f a [] none, .note t, .call g b [] none]) =
      [⟨t, some ⟨f, a, [], none, 1, false⟩⟩, ⟨[], some ⟨g, b, [], none, 1, false⟩⟩] := by
  simp [steps, acts, runs, run, guide, record]

/-- The note of a call goes to the first call that is made inside of it. -/
theorem nested_notes_fails {V : Type} (t : Str) (ht : t ≠ []) (f g : Nat) (a b : List V) :
    steps (.cons (.guide t) (.cons (.call f a (.cons (.call g b .nil (some ([], none))) .nil) (some ([], none))) .nil)) =
      [⟨t, some ⟨g, b, [], none, 2, false⟩⟩, ⟨[], some ⟨f, a, [], none, 1, false⟩⟩] := by
  simp [steps, runs, run, guide, record]

/-- A call in a setup, after a setup inside of it, is not shown as part of a setup. -/
theorem setup_fails {V : Type} (f : Nat) (a : List V) :
    steps (.cons (.setup (.cons (.setup .nil) (.cons (.call f a .nil (some ([], none))) .nil))) .nil) =
      [⟨[], some ⟨f, a, [], none, 1, false⟩⟩] := by
  simp [steps, runs, run, record]

/-! ## C223 -/

/-- Methods as Go has them: of different names, which are identifiers and so have no colons. -/
structure IsMethods (ms : Methods) : Prop where
  distinct : (ms.map (·.1)).Nodup
  names : ∀ m ∈ ms, ':' ∉ m.1

theorem no_colon {s : Str} (h : ':' ∉ s) : afterColon s = none := by
  induction s with
  | nil => rfl
  | cons c s ih =>
    simp only [List.mem_cons, not_or] at h
    simp [afterColon, Ne.symm h.1, ih h.2]

theorem after_colon {p s : Str} (h : ':' ∉ p) : afterColon (p ++ ':' :: s) = some s := by
  induction p with
  | nil => simp [afterColon]
  | cons c p ih =>
    simp only [List.mem_cons, not_or] at h
    simp [afterColon, Ne.symm h.1, ih h.2]

theorem find_iff : ∀ (ms : Methods) (name : Str) (m : Option End), (ms.map (·.1)).Nodup →
    (find name ms = some m ↔ (name, m) ∈ ms)
  | [], _, _, _ => by simp [find]
  | (n, m') :: rest, name, m, h => by
    simp only [List.map_cons, List.nodup_cons] at h
    have ih := find_iff rest name m h.2
    by_cases hn : n = name
    · subst hn
      have : (n, m) ∉ rest := fun hm => h.1 (List.mem_map.2 ⟨_, hm, rfl⟩)
      simp [find, this, eq_comm]
    · simp [find, hn, ih, Ne.symm hn]

/-- The example of a name, or of a name after a category and a colon, is the method of that name, if it is an example. -/
theorem example_iff (ms : Methods) (h : IsMethods ms) (category name : Str) (hc : ':' ∉ category) (hn : ':' ∉ name) (e : End) :
    (exampleOf (some ms) name = some e ↔ (name, some e) ∈ ms) ∧
    exampleOf (some ms) (category ++ ':' :: name) = exampleOf (some ms) name := by
  constructor
  · simp only [exampleOf, no_colon hn, Option.getD_none]
    rw [← find_iff ms name (some e) h.distinct]
    split
    · rename_i e' he; simp [he]
    · rename_i hne
      constructor
      · intro h; cases h
      · intro h; exact absurd h (hne e)
  · simp only [exampleOf, no_colon hn, after_colon hc, Option.getD_none, Option.getD_some]

/-- `Test` reports exactly the examples that return an error or panic; it ends at once only if the examples cannot be
made. -/
theorem test_iff (ms : Methods) (h : IsMethods ms) :
    ∃ failed, test (some ms) = some failed ∧ failed.Nodup ∧
      ∀ name, name ∈ failed ↔ (name, some End.error) ∈ ms ∨ (name, some End.panic) ∈ ms := by
  refine ⟨_, rfl, ?_, ?_⟩
  · refine List.Nodup.sublist List.filter_sublist ?_
    exact List.Nodup.sublist (List.Sublist.map _ List.filter_sublist) h.distinct
  · intro name
    have hin : ∀ e, (name, some e) ∈ ms → name ∈ examplesOf ms := fun e he => by
      simp only [examplesOf, List.mem_map, List.mem_filter]
      exact ⟨_, ⟨he, rfl⟩, rfl⟩
    have hex : ∀ e, name ∈ examplesOf ms → (exampleOf (some ms) name = some e ↔ (name, some e) ∈ ms) := fun e hm => by
      simp only [examplesOf, List.mem_map, List.mem_filter] at hm
      obtain ⟨m, ⟨hm, _⟩, rfl⟩ := hm
      exact (example_iff ms h [] m.1 (by simp) (h.names m hm) e).1
    rw [List.mem_filter]
    constructor
    · rintro ⟨hm, hf⟩
      split at hf
      · rename_i he; exact .inl ((hex _ hm).1 he)
      · rename_i he; exact .inr ((hex _ hm).1 he)
      · cases hf
    · rintro (he | he)
      · exact ⟨hin _ he, by rw [(hex _ (hin _ he)).2 he]⟩
      · exact ⟨hin _ he, by rw [(hex _ (hin _ he)).2 he]⟩

example : IsMethods [(['A'], some .ok), (['B'], some .panic), (['S'], none)] ∧
    test (some [(['A'], some .ok), (['B'], some .panic), (['S'], none)]) = some [['B']] :=
  ⟨⟨by decide, by decide⟩, by decide⟩

end Verif.Api.Example
