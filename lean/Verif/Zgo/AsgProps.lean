import Verif.Zgo.AsgSpec
/-!
# C186: assignments assign as in Go
-/
namespace Verif.Zgo.Asg
open Verif.Zgo.Asg.Spec

variable {σ E V : Type}

/-- The single assignments that are compiled right: not `op=` but to a variable, no other maps, no elements of
slices, no `&^=`. -/
def good (tok : Tok) (l : Left E) : Bool :=
  match tok, l with
  | .op o, .var _ => o ≠ .andNot
  | .op _, _ => false
  | _, .map .. | _, .elem .. => false
  | _, _ => true

/-- **C186**, partial: a well-formed assignment to one variable, `_`, `*p` or element of a map with string keys, and
`op=` to a variable, is accepted by Zig and does what Go allows, whatever its expressions do. -/
theorem assignment_partial (env : Env σ E V) (tok : Tok) (l : Left E) (e : E) (hw : WellFormed tok [l] [e])
    (hg : good tok l = true) (s : σ) :
    ∃ f, accepted (compile tok [l] [e]) = some f ∧ goMay env tok [l] [e] s (zigRun env f s) := by
  cases tok with
  | define =>
    obtain ⟨_, _, hv, x, hx⟩ := hw
    simp only [List.mem_singleton] at hx
    subst hx
    refine ⟨.define x e, rfl, ?_⟩
    simp only [goMay, zigRun, goAssign, places, place, evals, Option.bind_some, Option.map_some]
    cases env.eval e s with
    | none => rfl
    | some q => simp [stores]
  | set =>
    cases l with
    | var x =>
      refine ⟨.assign x none e, rfl, ?_⟩
      simp only [goMay, zigRun, goAssign, places, place, evals, Option.bind_some, Option.map_some]
      cases env.eval e s with
      | none => rfl
      | some q => simp [stores]
    | blank =>
      refine ⟨.use e, rfl, ?_⟩
      simp only [goMay, zigRun, goAssign, places, place, evals, Option.bind_some, Option.map_some]
      cases env.eval e s with
      | none => rfl
      | some q => simp [stores, env.nowhere]
    | star p =>
      refine ⟨.ptrSet p e, rfl, ?_⟩
      simp only [goMay, zigRun, goAssign, places, place, evals]
      cases env.eval p s with
      | none => rfl
      | some a =>
        simp only [Option.bind_some, Option.map_some]
        cases env.eval e a.1 with
        | none => rfl
        | some q => simp [stores]
    | smap m k =>
      refine ⟨.smapSet m k e, rfl, ?_⟩
      simp only [goMay, zigRun, goAssign, places, place, evals]
      cases env.eval m s with
      | none => rfl
      | some a =>
        simp only [Option.bind_some, Option.map_some]
        cases env.eval k a.1 with
        | none => rfl
        | some b =>
          simp only [Option.bind_some, Option.map_some]
          cases env.eval e b.1 with
          | none => rfl
          | some q => simp [stores]
    | map => simp [good] at hg
    | elem => simp [good] at hg
  | op o =>
    cases l with
    | var x =>
      have ho : o ≠ .andNot := by simpa [good] using hg
      refine ⟨.assign x (some o) e, ?_, .inl ?_⟩
      · cases o <;> first | rfl | exact absurd rfl ho
      · simp only [zigRun, place, Option.bind_some]
    | _ => simp [good] at hg

theorem after_accepted (f : Frag E) (o : Outcome E) (g : Frag E) (h : accepted (o.after f) = some g) :
    o = .text [] ∧ g = f := by
  match o with
  | .text [] =>
    refine ⟨rfl, ?_⟩
    simp only [Outcome.after, accepted] at h
    split at h
    · exact (Option.some.inj h).symm
    · cases h
  | .text (_ :: _) => simp [Outcome.after, accepted] at h
  | .crash => simp [Outcome.after, accepted] at h
  | .error => simp [Outcome.after, accepted] at h

theorem assignAll_nil (tok : Tok) (values : List E) (i : Nat) (vs : List (Left E))
    (h : assignAll tok values i vs = .text []) : vs = [] := by
  cases vs with
  | nil => rfl
  | cons v vs =>
    simp only [assignAll] at h
    split at h
    · cases h
    · cases v <;> simp only [] at h <;> first
        | (cases h; done)
        | (revert h; cases assignAll tok values (i + 1) vs <;> simp [Outcome.after])

theorem defineBlanks_length (values : List E) : ∀ (vs : List (Left E)) (i : Nat) (r),
    defineBlanks values i vs = some r → r.1.length + r.2.length = vs.length
  | [], _, _, h => by simp only [defineBlanks, Option.some.injEq] at h; subst h; rfl
  | .var x :: vs, i, r, h => by
    simp only [defineBlanks, Option.map_eq_some_iff] at h
    obtain ⟨q, hq, rfl⟩ := h
    have := defineBlanks_length values vs _ q hq
    simp only [List.length_cons]; omega
  | .blank :: vs, i, r, h => by
    simp only [defineBlanks] at h
    split at h
    · rename_i e q _ hq
      cases h
      have := defineBlanks_length values vs _ q hq
      simp only [List.length_cons]; omega
    · cases h
  | .star _ :: _, _, _, h => by simp [defineBlanks] at h
  | .smap _ _ :: _, _, _, h => by simp [defineBlanks] at h
  | .map _ _ :: _, _, _, h => by simp [defineBlanks] at h
  | .elem _ _ :: _, _, _, h => by simp [defineBlanks] at h

theorem defineNames_length (values : List E) : ∀ (xs : List Nat) (i : Nat) (fs),
    defineNames values i xs = some fs → fs.length = xs.length
  | [], _, _, h => by simp only [defineNames, Option.some.injEq] at h; subst h; rfl
  | x :: xs, i, fs, h => by
    simp only [defineNames] at h
    split at h
    · rename_i e gs _ hq
      cases h
      have := defineNames_length values xs _ gs hq
      simp only [List.length_cons]; omega
    · cases h

/-- **C186** (what is accepted): Zig accepts what is written for an assignment to more than one variable only if the
first is an element of a map with string keys, and then nothing is written for the others. -/
theorem several_accepted (tok : Tok) (a b : Left E) (vars : List (Left E)) (values : List E) (f : Frag E)
    (h : accepted (compile tok (a :: b :: vars) values) = some f) :
    tok ≠ .define ∧ ∃ m k e, a = .smap m k ∧ values.head? = some e ∧ f = .smapSet m k e := by
  have hall : ∀ tok, accepted (assignAll tok values 0 (a :: b :: vars)) = some f →
      ∃ m k e, a = .smap m k ∧ values.head? = some e ∧ f = .smapSet m k e := by
    intro tok h
    simp only [assignAll] at h
    have h0 : values[0]? = values.head? := by cases values <;> rfl
    rw [h0] at h
    split at h
    · simp [accepted] at h
    · rename_i e he
      cases a with
      | smap m k =>
        simp only [accepted, Frag.valid, if_true, Option.some.injEq] at h
        exact ⟨m, k, e, rfl, he, h.symm⟩
      | map m k => simp [accepted, Frag.valid] at h
      | var x => exact absurd (assignAll_nil tok values _ (b :: vars) (after_accepted _ _ _ h).1) (by simp)
      | blank => exact absurd (assignAll_nil tok values _ (b :: vars) (after_accepted _ _ _ h).1) (by simp)
      | star p => exact absurd (assignAll_nil tok values _ (b :: vars) (after_accepted _ _ _ h).1) (by simp)
      | elem s i => exact absurd (assignAll_nil tok values _ (b :: vars) (after_accepted _ _ _ h).1) (by simp)
  cases tok with
  | define =>
    exfalso
    simp only [compile] at h
    split at h
    · simp [accepted] at h
    · split at h
      · simp [accepted] at h
      · rename_i r hr
        split at h
        · simp [accepted] at h
        · rename_i fs hfs
          have h1 := defineBlanks_length _ _ _ _ hr
          have h2 := defineNames_length _ _ _ _ hfs
          have h3 : (r.1 ++ fs).length = vars.length + 2 := by
            simp only [List.length_append, List.length_cons] at *; omega
          match hrf : r.1 ++ fs, h3 with
          | [], h3 => simp at h3
          | [_], h3 => simp at h3
          | _ :: _ :: _, _ => rw [hrf] at h; simp [accepted] at h
  | set => exact ⟨by simp, hall .set h⟩
  | op o => exact ⟨by simp, hall (.op o) h⟩

/-- A world of numbers: expressions are constants or variables; a pointer or a map with a key is a number. -/
def exEnv : Env (Nat → Nat) (Nat ⊕ Nat) Nat where
  eval := fun e s => some (s, match e with | .inl n => n | .inr x => s x)
  load := fun p s => match p with
    | .var x => some (s x)
    | .cell a => some (s a)
    | .entry m k => some (s (m + k))
    | .elem m k => some (s (m + k))
    | .nowhere => none
  store := fun p v s => match p with
    | .var x => some (fun y => if y = x then v else s y)
    | .cell a => some (fun y => if y = a then v else s y)
    | .entry m k => some (fun y => if y = m + k then v else s y)
    | .elem m k => some (fun y => if y = m + k then v else s y)
    | .nowhere => some s
  op := fun _ a b => some (a + b)
  nowhere := fun _ _ => rfl

example : WellFormed (.op .add) [(.var 3 : Left (Nat ⊕ Nat))] [.inl 4] ∧
    good (.op .add) (.var 3 : Left (Nat ⊕ Nat)) = true ∧
    ((zigRun exEnv (.assign 3 (some .add) (.inl 4)) (fun _ => 5)).map (· 3)) = some 9 :=
  ⟨⟨by simp, .inl rfl, ⟨.var 3, rfl, by simp⟩⟩, by decide, by decide⟩

/-- **C186**, the full claim is false: Zig does not accept what is written for `a, b = b, a` or for `a, b := 1, 2`. -/
theorem swap_fails :
    WellFormed .set [(.var 0 : Left (Nat ⊕ Nat)), .var 1] [.inr 1, .inr 0] ∧
    accepted (compile .set [(.var 0 : Left (Nat ⊕ Nat)), .var 1] [.inr 1, .inr 0]) = none ∧
    WellFormed .define [(.var 0 : Left (Nat ⊕ Nat)), .var 1] [.inl 1, .inl 2] ∧
    accepted (compile .define [(.var 0 : Left (Nat ⊕ Nat)), .var 1] [.inl 1, .inl 2]) = none := by
  refine ⟨⟨by simp, .inl rfl, trivial⟩, by decide, ⟨by simp, .inl rfl, by simp, 0, by simp⟩, by decide⟩

/-- **C186**, the full claim is false: `a, b = f()` and `a, b := f()` make the compiler panic, for all variables. -/
theorem call_fails (a b : Nat) (f : E) :
    compile .set [.var a, .var b] [f] = .crash ∧ compile .define [.var a, .var b] [f] = .crash := ⟨rfl, rfl⟩

/-- **C186**, the full claim is false: `m["k"], x = 1, 2` compiles and does not assign to `x`. -/
theorem dropped_fails : ∃ f, accepted (compile .set [(.smap (.inl 10) (.inl 1) : Left (Nat ⊕ Nat)), .var 0] [.inl 1, .inl 2]) = some f ∧
    ((zigRun exEnv f (fun _ => 0)).map (· 0)) = some 0 ∧
    ∀ r, goMay exEnv .set [.smap (.inl 10) (.inl 1), .var 0] [.inl 1, .inl 2] (fun _ => 0) r → r.map (· 0) = some 2 :=
  ⟨.smapSet (.inl 10) (.inl 1) (.inl 1), by decide, by decide, fun r h => by
    simp only [goMay] at h; subst h; decide⟩

/-- **C186**, the full claim is false: `m["k"] += 4` and `*p += 4` compile to assignments of 4. -/
theorem operator_fails : ∀ l ∈ [(.smap (.inl 10) (.inl 1) : Left (Nat ⊕ Nat)), .star (.inl 11)],
    ∃ f, accepted (compile (.op .add) [l] [.inl 4]) = some f ∧
    ((zigRun exEnv f (fun _ => 5)).map (· 11)) = some 4 ∧
    ∀ r, goMay exEnv (.op .add) [l] [.inl 4] (fun _ => 5) r → r.map (· 11) = some 9 := by
  intro l hl
  simp only [List.mem_cons, List.not_mem_nil, or_false] at hl
  rcases hl with rfl | rfl
  · refine ⟨.smapSet (.inl 10) (.inl 1) (.inl 4), by decide, by decide, fun r h => ?_⟩
    rcases h with h | h <;> subst h <;> decide
  · refine ⟨.ptrSet (.inl 11) (.inl 4), by decide, by decide, fun r h => ?_⟩
    rcases h with h | h <;> subst h <;> decide

/-- **C186**, the full claim is false: elements of slices and of maps with other keys cannot be assigned to. -/
theorem elements_fail (tok : Tok) (h : tok ≠ .define) (s i e : E) :
    accepted (compile tok [.elem s i] [e]) = none ∧ accepted (compile tok [.map s i] [e]) = none := by
  cases tok with
  | define => exact absurd rfl h
  | set => exact ⟨rfl, rfl⟩
  | op o => exact ⟨rfl, rfl⟩

/-- What `x, _, y := …` writes, in full: first the values of the blanks, in their order, and then the names in their
order, each with the value at the name's position among the names. -/
def definitionText (vars : List (Left E)) (values : List E) : List (Frag E) :=
  (vars.zip values).filterMap (fun p => match p.1 with | .blank => some (.use p.2) | _ => none) ++
    ((vars.filterMap (fun l => match l with | .var x => some x | _ => none)).zip values).map (fun p => .define p.1 p.2)

theorem defineBlanks_eq (values : List E) : ∀ (vars : List (Left E)) (i : Nat), (∀ v ∈ vars, v = .blank ∨ ∃ x, v = .var x) →
    i + vars.length ≤ values.length →
    defineBlanks values i vars = some ((vars.zip (values.drop i)).filterMap
      (fun p => match p.1 with | .blank => some (.use p.2) | _ => none),
      vars.filterMap (fun l => match l with | .var x => some x | _ => none)) := by
  intro vars
  induction vars with
  | nil => intro i _ _; rfl
  | cons v vars ih =>
    intro i hv hl
    have hi : i < values.length := by simp at hl; omega
    have hd : values.drop i = values[i] :: values.drop (i + 1) := List.drop_eq_getElem_cons hi
    have ih := ih (i + 1) (fun w hw => hv w (by simp [hw])) (by simp at hl; omega)
    rcases hv v (by simp) with rfl | ⟨x, rfl⟩
    · rw [defineBlanks, ih, List.getElem?_eq_getElem hi, hd]
      rfl
    · rw [defineBlanks, ih, hd]
      rfl

theorem defineNames_eq (values : List E) : ∀ (xs : List Nat) (i : Nat), i + xs.length ≤ values.length →
    defineNames values i xs = some ((xs.zip (values.drop i)).map (fun p => .define p.1 p.2)) := by
  intro xs
  induction xs with
  | nil => intro i _; rfl
  | cons x xs ih =>
    intro i hl
    have hi : i < values.length := by simp at hl; omega
    rw [defineNames, ih (i + 1) (by simp at hl; omega), List.getElem?_eq_getElem hi, List.drop_eq_getElem_cons hi]
    rfl

/-- **C186**, exactly what a definition writes when there is a value for each name. -/
theorem define_text (vars : List (Left E)) (values : List E) (hv : ∀ v ∈ vars, v = .blank ∨ ∃ x, v = .var x)
    (hl : vars.length ≤ values.length) : compile .define vars values = .text (definitionText vars values) := by
  have hn : (vars.filterMap (fun l => match l with | .var x => some x | _ => none) : List Nat).length ≤ vars.length :=
    List.length_filterMap_le _ _
  unfold compile
  dsimp only
  rw [if_neg]
  · rw [defineBlanks_eq values vars 0 hv (by omega)]
    dsimp only
    rw [defineNames_eq values _ 0 (by omega)]
    rfl
  · intro h
    rw [List.any_eq_true] at h
    obtain ⟨v, hm, h⟩ := h
    rcases hv v hm with rfl | ⟨x, rfl⟩ <;> simp at h

/-- **C186**, the full claim is false, and not only because Zig refuses the text: in `_, a := e, f` the name is given
the value of the blank. -/
theorem blank_takes_fails (a : Nat) (e f : E) : compile .define [.blank, .var a] [e, f] = .text [.use e, .define a e] := by
  rw [define_text _ _ (by simp) (by simp)]
  rfl

/-- **C186**, the full claim is false: `x &^= e` is never accepted. -/
theorem andNot_fails (x : Nat) (e : E) : compile (.op .andNot) [.var x] [e] = .text [.assign x (some .andNot) e] ∧
    accepted (compile (.op .andNot) [.var x] [e]) = none := ⟨rfl, rfl⟩

end Verif.Zgo.Asg
