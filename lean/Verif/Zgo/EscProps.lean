import Verif.Zgo.EscScan

/-!
# zgo escape analysis: properties

C158 the answer to a question, C159 what is put on the heap, C160 what is wrongly left on the stack,
C161 declarations and uses agree.
-/
namespace Verif.Zgo.Esc
open Spec Relation

/-! ## C158 -/

/-- C158. Whatever questions were asked before (`before`), whatever the scanner did, the answer of each
of the four questions about a variable is exactly: a node with that mark can be reached from the variable
by links. The walk's shared `seen` set and the results it caches never change an answer. -/
theorem answer_is_reachability (ops : List Op) (hp : ∀ n via, Op.route n via ∈ ops → via.accomplices = [])
    (before : List Nat) (u : Nat) :
    let p := (ask (before.foldl (fun g u => (ask g u).2) (run ops)) u).1
    (p.block = true ↔ MarkReaches Plan.block ops (.var u)) ∧
    (p.function = true ↔ MarkReaches Plan.function ops (.var u)) ∧
    (p.goroutine = true ↔ MarkReaches Plan.goroutine ops (.var u)) ∧
    (p.containment = true ↔ MarkReaches Plan.containment ops (.var u)) :=
  ⟨ask_after ops hp before u (Or.inl rfl), ask_after ops hp before u (Or.inr (Or.inl rfl)),
   ask_after ops hp before u (Or.inr (Or.inr (Or.inl rfl))), ask_after ops hp before u (Or.inr (Or.inr (Or.inr rfl)))⟩

/-- The scanner of every program satisfies the premise of `answer_is_reachability`. -/
theorem scanner_marks_plain (prog : List Stmt) : ∀ n via, Op.route n via ∈ opsSs prog → via.accomplices = [] :=
  plainSs prog

/-- A cycle of three nodes with the mark on the far side, asked about twice and from both ends. -/
example :
    let ops : List Op := [.info 1 10, .together 10 11, .together 11 12, .together 12 10, .info 2 12,
      .route 11 { function := true }]
    (ask (run ops) 1).1.function = true ∧ (ask (run ops) 1).1.block = false ∧
    (ask (ask (run ops) 1).2 2).1.function = true ∧ (ask (run ops) 3).1.function = false := by decide

/-! ## C159 -/

theorem stack_iff (prog : List Stmt) (before : List Nat) (n : Nat) (v : Var) (h : Use prog n v) (hv : v.package = false) :
    stackAllocated prog before n v = true ↔
      ¬ ∃ f, Flag f ∧ MarkReaches f (opsSs prog) (.var v.unique) := by
  have ha := fun {f} (hf : Flag f) => ask_after (opsSs prog) (plainSs prog) before v.unique hf
  unfold stackAllocated stackAllocatedAfter
  rw [if_neg (by simpa using use_info h)]
  simp only [hv, Bool.false_or, Bool.and_eq_true, Bool.not_eq_true']
  constructor
  · rintro ⟨⟨⟨h1, h2⟩, h3⟩, h4⟩ ⟨f, hf, hm⟩
    have := (ha hf).2 hm
    rcases hf with rfl | rfl | rfl | rfl <;> simp_all
  · intro hn
    have hk : ∀ {f}, Flag f → f (ask (before.foldl (fun g u => (ask g u).2) (run (opsSs prog))) v.unique).1 = false := by
      intro f hf
      cases hb : f (ask (before.foldl (fun g u => (ask g u).2) (run (opsSs prog))) v.unique).1 with
      | false => rfl
      | true => exact absurd ⟨f, hf, (ha hf).1 hb⟩ hn
    exact ⟨⟨⟨hk (Or.inr (Or.inl rfl)), hk (Or.inl rfl)⟩, hk (Or.inr (Or.inr (Or.inl rfl)))⟩, hk (Or.inr (Or.inr (Or.inr rfl)))⟩

theorem shares_star {prog : List Stmt} {a b : Nat} (hl : ReflTransGen (Shares prog) a b) :
    ReflTransGen (Linked (opsSs prog)) (.var a) (.var b) := by
  induction hl with
  | refl => exact .refl
  | tail _ h ih => exact ih.trans (shares_conn h)

theorem occurs_at {prog : List Stmt} (i : Nat) {s : Stmt} (h : prog[i]? = some s) : Occurs prog s :=
  ⟨s, List.mem_of_getElem? h, .here⟩

/-- C159. Every variable `v` declared inside a function, for every use `n` of it that
is scanned: if some variable `w` that shares values with it (through any chain of assignments, channel sends
and expressions that carry both) is carried by a value handed to a call, a returned reference or a package
variable, then `v` is allocated on the heap, whatever was asked before. -/
theorem shared_with_a_sink_is_on_the_heap (prog : List Stmt) (before : List Nat) (n : Nat) (v w : Var)
    (e : Expr) (hs : Sink prog e) (hc : Carries e w)
    (hl : ReflTransGen (Shares prog) w.unique v.unique)
    (hu : Use prog n v) (hv : v.package = false) :
    stackAllocated prog before n v = false := by
  cases hst : stackAllocated prog before n v with
  | false => rfl
  | true =>
    exfalso
    refine (stack_iff prog before n v hu hv).1 hst ?_
    obtain ⟨hops, hm⟩ := sink_ops hs
    have h1 : ReflTransGen (Linked (opsSs prog)) (.node e.id) (.var w.unique) := carries_conn hc hops
    have h2 : ReflTransGen (Linked (opsSs prog)) (.var w.unique) (.var v.unique) := by
      exact shares_star hl
    have h3 := conn_symm (h1.trans h2)
    rcases hm with hm | hm
    · exact ⟨_, Or.inr (Or.inl rfl), _, h3, hm⟩
    · exact ⟨_, Or.inr (Or.inr (Or.inr rfl)), _, h3, hm⟩

/-- C159. A program that hands nothing to a call, returns no reference and assigns to no package variable
allocates nothing on the heap. -/
theorem nothing_escapes_without_a_sink (prog : List Stmt) (h : ¬ ∃ e, Sink prog e) (before : List Nat) (n : Nat) (v : Var) :
    stackAllocated prog before n v = true := by
  unfold stackAllocated stackAllocatedAfter
  by_cases hi : Op.info v.unique n ∈ opsSs prog
  · rw [if_neg (by simpa using hi)]
    have hk : ∀ {f}, Flag f → f (ask (before.foldl (fun g u => (ask g u).2) (run (opsSs prog))) v.unique).1 = false := by
      intro f hf
      cases hb : f (ask (before.foldl (fun g u => (ask g u).2) (run (opsSs prog))) v.unique).1 with
      | false => rfl
      | true =>
        obtain ⟨b, _, m, via, hm, _, hr⟩ := (ask_after (opsSs prog) (plainSs prog) before v.unique hf).1 hb
        refine absurd (mark_sink hm ?_) h
        rcases hf with rfl | rfl | rfl | rfl
        · exact Or.inl hr
        · exact Or.inr (Or.inl hr)
        · exact Or.inr (Or.inr (Or.inl hr))
        · exact Or.inr (Or.inr (Or.inr hr))
    simp [hk (f := Plan.block) (Or.inl rfl), hk (f := Plan.function) (Or.inr (Or.inl rfl)),
      hk (f := Plan.goroutine) (Or.inr (Or.inr (Or.inl rfl))), hk (f := Plan.containment) (Or.inr (Or.inr (Or.inr rfl)))]
  · rw [if_pos hi]

/-- C159. Package-level variables are never allocated on a goroutine's heap. -/
theorem package_variables_are_static (prog : List Stmt) (before : List Nat) (n : Nat) (v : Var) (h : v.package = true) :
    stackAllocated prog before n v = true := by
  unfold stackAllocated stackAllocatedAfter
  split
  · rfl
  · simp [h]

section Examples
def x : Var := ⟨1, false⟩
def p : Var := ⟨2, false⟩
def g : Var := ⟨3, true⟩
/-- `var x; p := &x; return p` -/
def returnsThroughDefine : List Stmt :=
  [.define 10 x none, .assign true [.var 11 p] [.amp 12 (.var 13 x)], .ret [.reference] [.var 14 p]]
/-- `var x; p := &x; _ = x` -/
def keeps : List Stmt :=
  [.define 10 x none, .assign true [.var 11 p] [.amp 12 (.var 13 x)], .ret [.basic] [.var 14 x]]
/-- `var x; var p = &x; return p` -/
def returnsThroughVar : List Stmt :=
  [.define 10 x none, .define 11 p (some (.amp 12 (.var 13 x))), .ret [.reference] [.var 14 p]]
/-- `var x; g.field = &x` -/
def storesInField : List Stmt :=
  [.define 10 x none, .assign false [.selector 11 (.var 12 g) (.leaf 15)] [.amp 13 (.var 14 x)]]
/-- `var x; return func() int { return x }` -/
def returnsClosure : List Stmt :=
  [.define 10 x none, .ret [.reference] [.function 11 [.ret [.basic] [.var 12 x]]]]
/-- `func(p **int) { var x; *p = &x }` -/
def storesThroughParameter : List Stmt :=
  [.define 10 x none, .assign false [.wrap 11 (.var 12 p)] [.amp 13 (.var 14 x)]]
end Examples

/-- The premises of the theorem above are met, and the conclusion checked by running the model. -/
example : Sink returnsThroughDefine (.var 14 p) ∧ Carries (.var 14 p) p ∧
    ReflTransGen (Shares returnsThroughDefine) p.unique x.unique ∧ Use returnsThroughDefine 10 x ∧
    stackAllocated returnsThroughDefine [] 10 x = false ∧ stackAllocated returnsThroughDefine [2, 1] 13 x = false ∧
    stackAllocated keeps [] 10 x = true :=
  ⟨.ret _ _ 0 _ _ (occurs_at 2 rfl) rfl rfl (Or.inl rfl), .var _ _,
   .single (.assign _ _ _ 0 _ _ p x (occurs_at 1 rfl) rfl rfl (.var _ _) (.amp _ _ _ (.var _ _))),
   Or.inr ⟨_, occurs_at 0 rfl⟩, by decide, by decide, by decide⟩

example : (¬ ∃ e, Sink keeps e) := by
  have hocc : ∀ a, Occurs keeps a → a ∈ keeps := by
    rintro a ⟨s, hs, h⟩
    have hs' := hs
    simp only [keeps, List.mem_cons, List.not_mem_nil, or_false] at hs
    cases h with
    | here => exact hs'
    | literal s n body t hf ht h2 =>
      rcases hs with rfl | rfl | rfl
      · cases hf
      · cases hf with
        | assignL d vars vals e he h3 =>
          rw [List.mem_singleton] at he; subst he; cases h3
        | assignR d vars vals i x e hx he h3 =>
          have := List.mem_of_getElem? he
          rw [List.mem_singleton] at this; subst this
          cases h3 with
          | amp n x h4 => cases h4
      · cases hf with
        | ret tys rs i t e ht2 he h3 =>
          have := List.mem_of_getElem? he
          rw [List.mem_singleton] at this; subst this; cases h3
    | range k w x body s h1 h2 => rcases hs with h | h | h <;> cases h
    | nestPre k pre es post s h1 h2 => rcases hs with h | h | h <;> cases h
    | nestPost k pre es post s h1 h2 => rcases hs with h | h | h <;> cases h
  rintro ⟨e, h⟩
  cases h with
  | arg n f args e ho he =>
    obtain ⟨s, hs, h⟩ := ho
    simp only [keeps, List.mem_cons, List.not_mem_nil, or_false] at hs
    rcases hs with rfl | rfl | rfl
    · cases h
    · cases h with
      | assignL d vars vals e he h3 => rw [List.mem_singleton] at he; subst he; cases h3
      | assignR d vars vals i x e hx he h3 =>
        have := List.mem_of_getElem? he
        rw [List.mem_singleton] at this; subst this
        cases h3 with
        | amp n x h4 => cases h4
    · cases h with
      | ret tys rs i t e ht2 he h3 =>
        have := List.mem_of_getElem? he
        rw [List.mem_singleton] at this; subst this; cases h3
  | spawn f args e ho he =>
    have := hocc _ ho; simp [keeps] at this
  | ret tys rs i t e ho ht he hr =>
    have := hocc _ ho
    simp [keeps] at this
    obtain ⟨rfl, rfl⟩ := this
    cases i with
    | zero => simp at ht; subst ht; simp at hr
    | succ i => simp at ht
  | «global» d vars vals i n v e ho hx hp he =>
    have := hocc _ ho
    simp [keeps] at this
    obtain ⟨rfl, rfl, rfl⟩ := this
    cases i with
    | zero => simp at hx; obtain ⟨rfl, rfl⟩ := hx; simp [p] at hp
    | succ i => simp at hx
  | imported d vars vals i n q m v e ho hx hp he =>
    have := hocc _ ho
    simp [keeps] at this
    obtain ⟨rfl, rfl, rfl⟩ := this
    cases i with
    | zero => simp at hx
    | succ i => simp at hx

/-! ## C160 -/

/-- C160, the full statement: a variable that is needed after the function that declares it returned is
never put on the stack. -/
def OutlivingIsOnTheHeap : Prop :=
  ∀ (prog : List Stmt) (before : List Nat) (n : Nat) (v : Var),
    Outlives prog v → Use prog n v → v.package = false → stackAllocated prog before n v = false

/-- C160 fails: the initial value of a `var` is not looked at, so `var p = &x; return p` returns the address
of a stack variable. -/
theorem address_in_var_initialiser_fails :
    Outlives returnsThroughVar x ∧ Use returnsThroughVar 10 x ∧ stackAllocated returnsThroughVar [] 10 x = true := by
  refine ⟨.returned [.reference] [.var 14 p] 0 (.var 14 p) (occurs_at 2 rfl) rfl rfl
    (.init 14 11 p _ x (occurs_at 1 rfl) (.amp 12 13 x)), ?_, by decide⟩
  exact Or.inr ⟨none, occurs_at 0 rfl⟩

/-- C160 fails: an address stored in a field of a package variable is not seen to leave the function. -/
theorem address_in_global_field_fails :
    Outlives storesInField x ∧ Use storesInField 10 x ∧ stackAllocated storesInField [] 10 x = true := by
  refine ⟨.inside false _ _ 0 11 12 g (.leaf 15) _ (occurs_at 1 rfl) rfl rfl rfl
    (.amp 13 14 x), ?_, by decide⟩
  exact Or.inr ⟨none, occurs_at 0 rfl⟩

/-- C160 fails: a variable used by a returned function literal is left on the stack. -/
theorem captured_variable_fails :
    Outlives returnsClosure x ∧ Use returnsClosure 10 x ∧ stackAllocated returnsClosure [] 10 x = true := by
  refine ⟨.captured [.reference] _ 0 11 12 _ (occurs_at 1 rfl) rfl rfl
    (.function 11 _ _ List.mem_cons_self (.ret [.basic] [.var 12 x] 0 .basic _ rfl rfl .here)), ?_, by decide⟩
  exact Or.inr ⟨none, occurs_at 0 rfl⟩

/-- C160 fails: an address stored through a pointer parameter is not seen to leave the function. -/
theorem address_through_parameter_fails :
    Outlives storesThroughParameter x ∧ Use storesThroughParameter 10 x ∧
      stackAllocated storesThroughParameter [] 10 x = true := by
  refine ⟨.through false _ _ 0 11 12 p _ (occurs_at 1 rfl) rfl rfl
    (.amp 13 14 x) ?_, ?_, by decide⟩
  · rintro k val ⟨s, hs, h⟩
    simp only [storesThroughParameter, List.mem_cons, List.not_mem_nil, or_false] at hs
    rcases hs with rfl | rfl
    · cases h with
      | literal s n body t hf ht h2 => cases hf
    · cases h with
      | literal s n body t hf ht h2 =>
        cases hf with
        | assignL d vars vals e he h3 =>
          rw [List.mem_singleton] at he; subst he
          cases h3 with
          | wrap n x h4 => cases h4
        | assignR d vars vals i x e hx he h3 =>
          have := List.mem_of_getElem? he
          rw [List.mem_singleton] at this; subst this
          cases h3 with
          | amp n x h4 => cases h4
  · exact Or.inr ⟨none, occurs_at 0 rfl⟩

/-- C160: the full statement is false. -/
theorem outliving_is_on_the_heap_fails : ¬ OutlivingIsOnTheHeap := by
  intro h
  obtain ⟨h1, h2, h3⟩ := address_in_var_initialiser_fails
  rw [h returnsThroughVar [] 10 x h1 h2 rfl] at h3
  cases h3

/-- The variables `PointsTo` leads through are linked, as long as no `var` initialiser is involved. -/
theorem pointsTo_shares {prog : List Stmt} {e : Expr} {v : Var} (h : PointsTo prog e v)
    (hno : ∀ m q val, ¬ Occurs prog (.define m q (some val))) :
    ∃ w, Carries e w ∧ ReflTransGen (Shares prog) w.unique v.unique := by
  induction h with
  | amp n m v => exact ⟨v, .amp _ _ _ (.var _ _), .refl⟩
  | init n m p val v ho _ _ => exact absurd ho (hno m p val)
  | assigned n m p d vars vals i e v ho hx he _ ih =>
    obtain ⟨w, hw, hl⟩ := ih
    exact ⟨p, .var _ _, ReflTransGen.head (.assign d vars vals i _ _ p w ho hx he (.var _ _) hw) hl⟩

/-- C160, the part that holds: in a program without `var` initialisers, a variable whose address is returned
or stored in a package variable (directly, or through any number of assigned variables) is on the heap. -/
theorem returned_or_stored_address_is_on_the_heap_partial (prog : List Stmt) (before : List Nat) (n : Nat) (v : Var) (e : Expr)
    (hno : ∀ m q val, ¬ Occurs prog (.define m q (some val)))
    (hs : Sink prog e) (hp : PointsTo prog e v) (hu : Use prog n v) (hv : v.package = false) :
    stackAllocated prog before n v = false := by
  obtain ⟨w, hw, hl⟩ := pointsTo_shares hp hno
  exact shared_with_a_sink_is_on_the_heap prog before n v w e hs hw hl hu hv

example : PointsTo returnsThroughDefine (.var 14 p) x ∧ stackAllocated returnsThroughDefine [] 10 x = false :=
  ⟨.assigned 14 11 p true _ _ 0 _ x (occurs_at 1 rfl) rfl rfl (.amp 12 13 x), by decide⟩

/-! ## C161 -/

/-- C161, the half that holds: every scanned use of a variable, and its `var` declaration, get the same
answer, however many questions were asked in between. -/
theorem scanned_uses_agree_partial (prog : List Stmt) (b1 b2 : List Nat) (n m : Nat) (v : Var)
    (h1 : Use prog n v) (h2 : Use prog m v) :
    stackAllocated prog b1 n v = stackAllocated prog b2 m v := by
  by_cases hv : v.package = true
  · rw [package_variables_are_static _ _ _ _ hv, package_variables_are_static _ _ _ _ hv]
  · have hv' : v.package = false := by simpa using hv
    have := (stack_iff prog b1 n v h1 hv').trans (stack_iff prog b2 m v h2 hv').symm
    cases ha : stackAllocated prog b1 n v <;> cases hb : stackAllocated prog b2 m v <;> simp_all

/-- Every occurrence of the variable in the program's text, scanned or not: declarations, uses, operands of
`x++`, initial values of `var`s, the variables of a range statement. -/
inductive Spec.Mentions (n : Nat) (v : Var) : Stmt → Prop
  | scanned s : ESInS (.var n v) s → Mentions n v s
  | declared val : Mentions n v (.define n v val)
  | bumped x : InE (.var n v) x → Mentions n v (.bump x)
  | initial m q val : InE (.var n v) val → Mentions n v (.define m q (some val))
  | rangeKey w x body : Mentions n v (.range (some (n, v)) w x body)
  | rangeVal k x body : Mentions n v (.range k (some (n, v)) x body)

/-- C161, the full statement: a variable's declaration and all its uses are compiled alike. -/
def AllMentionsAgree : Prop :=
  ∀ (prog : List Stmt) (b1 b2 : List Nat) (n m : Nat) (v : Var) (s t : Stmt),
    Occurs prog s → Occurs prog t → Mentions n v s → Mentions m v t →
    stackAllocated prog b1 n v = stackAllocated prog b2 m v

/-- `var x int; x++; f(&x)`: the declaration is a pointer to the heap, the increment is not. -/
def bumps : List Stmt := [.define 10 x none, .bump (.var 11 x), .expr (.call 12 (.leaf 13) [.amp 14 (.var 15 x)])]

/-- C161 fails: `x++` compiles the variable as a stack variable even when it was declared on the heap. -/
theorem increment_disagrees_fails : ¬ AllMentionsAgree := by
  intro h
  have := h bumps [] [] 10 11 x _ _ ⟨.define 10 x none, by simp [bumps], .here⟩
    ⟨.bump (.var 11 x), by simp [bumps], .here⟩ (.declared none) (.bumped _ .here)
  revert this; decide

/-- `for i := range xs { f(&i) }`: the loop variable is declared as a plain value and used as a pointer. -/
def ranges : List Stmt :=
  [.range (some (10, x)) none (.leaf 9) [.expr (.call 12 (.leaf 13) [.amp 14 (.var 15 x)])]]

/-- C161 fails: the variables of a range statement are declared as stack variables even when their uses are
compiled as heap variables. -/
theorem range_variable_disagrees_fails :
    ∃ s t, Occurs ranges s ∧ Occurs ranges t ∧ Mentions 10 x s ∧ Mentions 15 x t ∧
      stackAllocated ranges [] 10 x ≠ stackAllocated ranges [] 15 x :=
  ⟨_, _, ⟨_, List.mem_cons_self, .here⟩,
    ⟨_, List.mem_cons_self, .range _ _ _ _ _ List.mem_cons_self .here⟩, .rangeKey _ _ _,
    .scanned _ (.expr _ (.callA _ _ _ _ List.mem_cons_self (.amp _ _ .here))), by decide⟩

example : stackAllocated bumps [] 10 x = false ∧ stackAllocated bumps [] 15 x = false ∧
    stackAllocated bumps [] 11 x = true := by decide

end Verif.Zgo.Esc
