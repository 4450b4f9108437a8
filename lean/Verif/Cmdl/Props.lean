import Verif.Cmdl.Lemmas
/-!
# C44: dispatch, C83: placeholders, C84: the client's command line, C85: from client to program
-/
namespace Verif.Cmdl

/-! ## C44 -/

/-- C44: the score of a command is the worth of the parts of its tag that agree with the words, up to
the first that does not. -/
theorem score_spec (tag : Str) (ws : List Str) : ∃ k, k ≤ (split ' ' tag).length ∧
    (∀ i, i < k → ∃ comp, (split ' ' tag)[i]? = some comp ∧ agrees comp ws[i]?) ∧
    (∀ comp, (split ' ' tag)[k]? = some comp → ¬ agrees comp ws[k]?) ∧
    score tag ws = (((split ' ' tag).take k).map weight).sum := by
  unfold score
  generalize split ' ' tag = comps
  induction comps generalizing ws with
  | nil => exact ⟨0, Nat.le_refl _, by simp, by simp, by simp [scoreFrom]⟩
  | cons comp comps ih =>
    by_cases hp : comp.head? = some '%'
    · obtain ⟨k, h1, h2, h3, h4⟩ := ih ws.tail
      refine ⟨k + 1, by simpa using h1, ?_, ?_, ?_⟩
      · intro i hi
        cases i with
        | zero => exact ⟨comp, by simp, Or.inl hp⟩
        | succ i =>
          obtain ⟨x, e, a⟩ := h2 i (by omega)
          exact ⟨x, by simpa using e, by simpa using a⟩
      · intro x hx
        have := h3 x (by simpa using hx)
        simpa using this
      · rw [scoreFrom.eq_def]; simp only; rw [if_pos (by simpa [percent] using hp), h4]
        simp [weight, hp]
    · have hq : ¬ percent comp = true := by simpa [percent] using hp
      cases ws with
      | nil =>
        refine ⟨0, Nat.zero_le _, by simp, ?_, by simp [scoreFrom, hq]⟩
        intro x hx
        simp only [List.getElem?_cons_zero, Option.some.injEq] at hx
        subst hx
        simp [agrees, hp]
      | cons w ws =>
        by_cases he : comp = w
        · obtain ⟨k, h1, h2, h3, h4⟩ := ih ws
          refine ⟨k + 1, by simpa using h1, ?_, ?_, ?_⟩
          · intro i hi
            cases i with
            | zero => exact ⟨comp, by simp, Or.inr (by simp [he])⟩
            | succ i =>
              obtain ⟨x, e, a⟩ := h2 i (by omega)
              exact ⟨x, by simpa using e, by simpa using a⟩
          · intro x hx
            have := h3 x (by simpa using hx)
            simpa using this
          · simp only [scoreFrom, if_neg hq, if_pos he, h4]
            simp [weight, hp]
        · refine ⟨0, Nat.zero_le _, by simp, ?_, by simp [scoreFrom, hq, he]⟩
          intro x hx
          simp only [List.getElem?_cons_zero, Option.some.injEq] at hx
          subst hx
          simp [agrees, hp, Ne.symm he]

/-- The command at position `i` is the first of the best ones. -/
def FirstBest (fns : List Fn) (ws : List Str) (i : Nat) : Prop :=
  ∃ fn, fns[i]? = some fn ∧ 0 < score fn.tag ws ∧
    (∀ (j : Nat) (g : Fn), fns[j]? = some g → score g.tag ws ≤ score fn.tag ws) ∧
    (∀ (j : Nat) (g : Fn), j < i → fns[j]? = some g → score g.tag ws < score fn.tag ws)

theorem best_spec (ws : List Str) : ∀ (fns : List Fn) (m : Option Fn × Nat),
    ((best ws fns m) = m ∧ ∀ g ∈ fns, score g.tag ws ≤ m.2) ∨
    (∃ (i : Nat) (fn : Fn), fns[i]? = some fn ∧ m.2 < score fn.tag ws ∧ best ws fns m = (some fn, score fn.tag ws) ∧
      (∀ (j : Nat) (g : Fn), fns[j]? = some g → score g.tag ws ≤ score fn.tag ws) ∧
      (∀ (j : Nat) (g : Fn), j < i → fns[j]? = some g → score g.tag ws < score fn.tag ws))
  | [], m => Or.inl ⟨rfl, by simp⟩
  | f :: fns, m => by
    rw [best]
    by_cases h : score f.tag ws > m.2
    · rw [if_pos h]
      rcases best_spec ws fns (some f, score f.tag ws) with ⟨e, hl⟩ | ⟨i, fn, hi, hlt, e, h1, h2⟩
      · refine Or.inr ⟨0, f, rfl, h, e, ?_, by simp⟩
        intro j g hg
        cases j with
        | zero => simp only [List.getElem?_cons_zero, Option.some.injEq] at hg; subst hg; exact Nat.le_refl _
        | succ j => exact hl g (List.mem_of_getElem? (by simpa using hg))
      · refine Or.inr ⟨i + 1, fn, by simpa using hi, by simp only at hlt; omega, e, ?_, ?_⟩
        · intro j g hg
          cases j with
          | zero => simp only [List.getElem?_cons_zero, Option.some.injEq] at hg; subst hg; exact Nat.le_of_lt hlt
          | succ j => exact h1 j g (by simpa using hg)
        · intro j g hj hg
          cases j with
          | zero => simp only [List.getElem?_cons_zero, Option.some.injEq] at hg; subst hg; exact hlt
          | succ j => exact h2 j g (by omega) (by simpa using hg)
    · rw [if_neg h]
      rcases best_spec ws fns m with ⟨e, hl⟩ | ⟨i, fn, hi, hlt, e, h1, h2⟩
      · refine Or.inl ⟨e, ?_⟩
        intro g hg
        rcases List.mem_cons.1 hg with rfl | hg
        · omega
        · exact hl g hg
      · refine Or.inr ⟨i + 1, fn, by simpa using hi, hlt, e, ?_, ?_⟩
        · intro j g hg
          cases j with
          | zero => simp only [List.getElem?_cons_zero, Option.some.injEq] at hg; subst hg; omega
          | succ j => exact h1 j g (by simpa using hg)
        · intro j g hj hg
          cases j with
          | zero => simp only [List.getElem?_cons_zero, Option.some.injEq] at hg; subst hg; omega
          | succ j => exact h2 j g (by omega) (by simpa using hg)

/-- C44: the command that is chosen is the first of those with the highest score. -/
theorem dispatch_iff (fns : List Fn) (prog : Str) (ws : List Str) (hw : ws ≠ []) (fn : Fn) :
    dispatch fns (prog :: ws) = some fn ↔ ∃ i, fns[i]? = some fn ∧ FirstBest fns ws i := by
  have hl : ¬ (prog :: ws).length = 1 := by
    cases ws with
    | nil => exact absurd rfl hw
    | cons => simp
  rw [dispatch, if_neg hl]
  rw [List.tail_cons]
  rcases best_spec ws fns (none, 0) with ⟨e, h⟩ | ⟨i, f, hi, hlt, e, h1, h2⟩
  · rw [e]
    simp only [chosen, if_true, reduceCtorEq, false_iff]
    rintro ⟨i, hi, f, hf, hp, _⟩
    have := h f (List.mem_of_getElem? hf)
    simp only at this
    omega
  · rw [e]
    simp only at hlt
    simp only [chosen]
    rw [if_neg (by omega)]
    constructor
    · intro x
      obtain rfl := Option.some.inj x
      exact ⟨i, hi, f, hi, hlt, h1, h2⟩
    · rintro ⟨j, hj, g, hg, hp, g1, g2⟩
      obtain rfl : fn = g := Option.some.inj (hj.symm.trans hg)
      have hij : i = j := by
        rcases Nat.lt_trichotomy i j with x | x | x
        · have := g2 i f x hi; have := h1 j fn hj; omega
        · exact x
        · have := h2 j fn x hj; have := g1 i f hi; omega
      subst hij
      exact hi.symm.trans hj

/-- C44: a command line that agrees with no command in its first word is not run. -/
theorem dispatch_none (fns : List Fn) (prog : Str) (ws : List Str) (hw : ws ≠ [])
    (h : ∀ fn ∈ fns, score fn.tag ws = 0) : dispatch fns (prog :: ws) = none := by
  cases e : dispatch fns (prog :: ws) with
  | none => rfl
  | some fn =>
    obtain ⟨i, _, f, hf, hp, _⟩ := (dispatch_iff fns prog ws hw fn).1 e
    have := h f (List.mem_of_getElem? hf)
    omega

/-- C44 fails: `remote remove` runs the command `remote add`. -/
theorem literals_fail : (dispatch [⟨"remote add".toList, [], false⟩]
    ["git".toList, "remote".toList, "remove".toList]).isSome = true := by decide +kernel

/-- C44 fails: `get list` runs the command `get %v %v %v` although there is a command `get list`. -/
theorem placeholders_preferred : (dispatch
    [⟨"get %v %v %v".toList, [.str, .str, .str], false⟩, ⟨"get list".toList, [], false⟩]
    ["prog".toList, "get".toList, "list".toList]).map Fn.params = some [.str, .str, .str] := by decide +kernel

/-- C44 fails: a command with a flag after its last word can only be run by typing the flag too. -/
theorem flags_are_words : dispatch [⟨"list,json".toList, [], false⟩] ["prog".toList, "list".toList] = none ∧
    (dispatch [⟨"list,json".toList, [], false⟩] ["prog".toList, "list,json".toList]).isSome = true := by
  constructor <;> decide +kernel

/-! ## C83 -/

/-- The number of `%v` and the argument a part stands for agree: nothing comes before, or the part is
not numbered. -/
def Part.Plain (n : Nat) (p : Part) : Prop := n = 0 ∨ ∀ k, p ≠ .nth k

/-- Whether the argument a part stands for is there. -/
def Part.There (len n : Nat) (p : Part) : Prop :=
  p ≠ .nth 0 ∧ ∀ i, p.means n = some i → i < len

theorem refer_means (n : Nat) (p : Part) (h : p.Plain n) (hl : ∀ s, p ≠ .lit s) :
    p.means n = some (p.refer n).1 := by
  cases p with
  | lit s => exact absurd rfl (hl s)
  | next => rfl
  | nth k =>
    rcases h with rfl | h
    · simp [Part.means, Part.refer]
    · exact absurd rfl (h k)

theorem there_found (len n : Nat) (p : Part) (h : p.Plain n) (hl : ∀ s, p ≠ .lit s) :
    p.There len n ↔ p.found len n := by
  cases p with
  | lit s => exact absurd rfl (hl s)
  | next => simp [Part.There, Part.means, Part.found]
  | nth k =>
    rcases h with rfl | h
    · simp only [Part.There, Part.means, Part.found, ne_eq, Part.nth.injEq, Option.some.injEq, forall_eq']
      omega
    · exact absurd rfl (h k)

/-- C83, partial: a placeholder that is not numbered, or before which there is no other, is found
exactly if the argument it stands for is there, and is that argument. -/
theorem scan_partial (len n : Nat) (p : Part) (h : p.Plain n) (hl : ∀ s, p ≠ .lit s) (i : Nat) :
    (∃ n', scan len n p.text = some (i, n')) ↔ p.There len n ∧ p.means n = some i := by
  rw [there_found len n p h hl, refer_means n p h hl]
  by_cases hf : p.found len n
  · rw [scan_found len n p hl hf]
    simp only [hf, true_and, Option.some.injEq]
    constructor
    · rintro ⟨n', e⟩; rw [e]
    · rintro rfl; exact ⟨_, rfl⟩
  · rw [scan_missing len n p hl hf]
    simp [hf]

example : (Part.nth 12).Plain 0 ∧ (Part.nth 12).There 20 0 :=
  ⟨Or.inl rfl, by simp [Part.There, Part.means]⟩

/-- C83 fails: after one `%v`, `%[1]v` is the second argument. -/
theorem numbers_count_from_here : scan 2 1 (Part.nth 1).text = some (1, 1) ∧
    (Part.nth 1).means 1 = some 0 := by
  constructor <;> decide +kernel

/-- C83 fails, in general: after `n` placeholders `%v`, `%[k]v` is argument `n + k`, and there is an
error if that is beyond the last. -/
theorem numbers_exact (len n k : Nat) : scan len n (Part.nth k).text =
    if 1 ≤ k ∧ n + k ≤ len then some (n + k - 1, n) else none := by
  by_cases h : 1 ≤ k ∧ n + k ≤ len
  · rw [if_pos h]; exact scan_found len n (.nth k) (by simp) h
  · rw [if_neg h]; exact scan_missing len n (.nth k) (by simp) h

/-! ## C84 -/

/-- Numbered placeholders only come before the others. -/
def NumbersFirst : Nat → List Part → Prop
  | _, [] => True
  | n, p :: ps => p.Plain n ∧ NumbersFirst (if p = .next then n + 1 else n) ps

/-- All arguments that placeholders stand for are there. -/
def AllThere (len : Nat) : Nat → List Part → Prop
  | _, [] => True
  | n, p :: ps => p.There len n ∧ AllThere len (if p = .next then n + 1 else n) ps

theorem refer_state (n : Nat) (p : Part) : (p.refer n).2 = if p = .next then n + 1 else n := by
  cases p <;> simp [Part.refer]

theorem clientLoop_spec {α : Type} (c : Codec α) (args : List (Val α)) : ∀ (ps : List Part) (n : Nat),
    (∀ p ∈ ps, p.Ok) → NumbersFirst n ps →
    (AllThere args.length n ps →
      clientLoop c args (ps.map Part.text) n = some (commandLine c.shows args n ps)) ∧
    (¬ AllThere args.length n ps → clientLoop c args (ps.map Part.text) n = none)
  | [], n, _, _ => ⟨fun _ => rfl, fun h => absurd trivial h⟩
  | p :: ps, n, hok, ⟨hp, hn⟩ => by
    have ih := clientLoop_spec c args ps (if p = .next then n + 1 else n)
      (fun q hq => hok q (by simp [hq])) hn
    cases p with
    | lit s =>
      simp only [reduceCtorEq, if_false] at ih
      have e := client_lit c args s (hok _ (by simp)) (ps.map Part.text) n
      simp only [List.map_cons, Part.text]
      rw [e]
      constructor
      · rintro ⟨_, h⟩
        rw [ih.1 (by simpa using h)]
        simp [commandLine]
      · intro h
        rw [ih.2 (fun x => h ⟨by simp [Part.There, Part.means], by simpa using x⟩)]
        rfl
    | next =>
      rw [List.map_cons]
      by_cases hf : Part.next.found args.length n
      · have hlt := refer_lt _ _ _ hf (by simp)
        have hv := List.getElem?_eq_getElem hlt
        rw [client_arg c args .next (by simp) _ n hf hv, refer_state]
        have ht := (there_found _ _ _ hp (by simp)).2 hf
        constructor
        · rintro ⟨_, h⟩
          rw [ih.1 h]
          simp only [commandLine, refer_means n _ hp (by simp), hv, Option.map_some]
          cases args[(Part.next.refer n).1] <;> rfl
        · intro h
          rw [ih.2 (fun x => h ⟨ht, x⟩)]
          rfl
      · rw [client_missing c args .next (by simp) n hf]
        exact ⟨fun h => absurd ((there_found _ _ _ hp (by simp)).1 h.1) hf, fun _ => rfl⟩
    | nth k =>
      rw [List.map_cons]
      by_cases hf : (Part.nth k).found args.length n
      · have hlt := refer_lt _ _ _ hf (by simp)
        have hv := List.getElem?_eq_getElem hlt
        rw [client_arg c args (.nth k) (by simp) _ n hf hv, refer_state]
        have ht := (there_found _ _ _ hp (by simp)).2 hf
        constructor
        · rintro ⟨_, h⟩
          rw [ih.1 h]
          simp only [commandLine, refer_means n _ hp (by simp), hv, Option.map_some]
          cases args[((Part.nth k).refer n).1] <;> rfl
        · intro h
          rw [ih.2 (fun x => h ⟨ht, x⟩)]
          rfl
      · rw [client_missing c args (.nth k) (by simp) n hf]
        exact ⟨fun h => absurd ((there_found _ _ _ hp (by simp)).1 h.1) hf, fun _ => rfl⟩

/-- C84, partial: the client runs the program with the words of the tag and the arguments in the
places of their placeholders, each as one word, if numbered placeholders come first; and it refuses
to run anything if an argument is missing. -/
theorem client_partial {α : Type} (c : Codec α) (args : List (Val α)) (ps : List Part) (hne : ps ≠ [])
    (hok : ∀ p ∈ ps, p.Ok) (hn : NumbersFirst 0 ps) :
    (AllThere args.length 0 ps → client c [] (tagOf ps) args = some (commandLine c.shows args 0 ps)) ∧
    (¬ AllThere args.length 0 ps → client c [] (tagOf ps) args = none) := by
  have e : client c [] (tagOf ps) args = clientLoop c args (ps.map Part.text) 0 := by
    simp only [client, if_true, if_neg (tag_ne_nil ps hne hok), split_tag ps hne hok]
  rw [e]
  exact clientLoop_spec c args ps 0 hok hn

example : NumbersFirst 0 [.lit "pos".toList, .nth 2, .nth 1] ∧ AllThere 2 0 [.lit "pos".toList, .nth 2, .nth 1] ∧
    (∀ p ∈ [Part.lit "pos".toList, .nth 2, .nth 1], p.Ok) := by
  refine ⟨?_, ?_, ?_⟩
  · simp [NumbersFirst, Part.Plain]
  · simp [AllThere, Part.There, Part.means]
  · simp [Part.Ok]

/-- C84: a section's tag comes first. -/
theorem client_section {α : Type} (c : Codec α) (args : List (Val α)) (pre : List Part) (ps : List Part)
    (hpre : pre ≠ []) (hne : ps ≠ []) (hokp : ∀ p ∈ pre, p.Ok) :
    client c (tagOf pre) (tagOf ps) args = client c [] (tagOf pre ++ ' ' :: tagOf ps) args := by
  unfold client
  rw [if_neg (tag_ne_nil pre hpre hokp), if_pos rfl]

/-- C84 fails: numbered placeholders after others take the wrong argument. -/
theorem client_fails : ∃ (c : Codec Nat) (args : List (Val Nat)) (ps : List Part),
    (∀ p ∈ ps, p.Ok) ∧ AllThere args.length 0 ps ∧
    client c [] (tagOf ps) args ≠ some (commandLine c.shows args 0 ps) := by
  refine ⟨⟨fun _ => [], fun _ => none, 0⟩, [.str ['a'], .str ['b']], [.next, .nth 1], ?_, ?_, ?_⟩
  · simp [Part.Ok]
  · simp [AllThere, Part.There, Part.means]
  · decide +kernel

end Verif.Cmdl
