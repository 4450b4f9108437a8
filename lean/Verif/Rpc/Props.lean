import Verif.Rpc.Model
import Mathlib.Data.List.Nodup
/-!
# Properties of remote functions
-/
namespace Verif.Rpc

variable {V R A : Type}

/-! ## Specification -/

/-- The functions among what was registered. -/
def functions : List (Value V R) → List (FTy × (V → V → Str × R))
  | [] => []
  | .fn t c :: vs => (t, c) :: functions vs
  | .other _ _ :: vs => functions vs

/-- The runtimes among what was registered. -/
def runtimes : List (Value V R) → List (Ty × V)
  | [] => []
  | .fn _ _ :: vs => runtimes vs
  | .other t v :: vs => (t, v) :: runtimes vs

/-- The name of a function: it does not depend on the receiver or the runtime. -/
def Named (f : FTy × (V → V → Str × R)) (name : Str) : Prop := ∀ recv api, (f.2 recv api).1 = name

/-- What was registered, in any order, can be told apart: no two functions have one name, no two runtimes one type. -/
structure Unambiguous (vs : List (Value V R)) (names : FTy × (V → V → Str × R) → Str) : Prop where
  named : ∀ f ∈ functions vs, Named f (names f)
  distinct : ((functions vs).map names).Nodup
  results : ∀ f ∈ functions vs, f.1.out ≠ none
  runtimes : ((runtimes vs).map Prod.fst).Nodup

/-! ## Lemmas -/

private theorem lookup_mem {K B : Type} [DecidableEq K] (m : List (K × B)) (k : K) (b : B) (h : (k, b) ∈ m)
    (hnd : (m.map Prod.fst).Nodup) : lookup m k = some b := by
  induction m with
  | nil => simp at h
  | cons x xs ih =>
    obtain ⟨k', b'⟩ := x
    rw [List.map_cons, List.nodup_cons] at hnd
    rw [lookup]
    rcases List.mem_cons.1 h with he | he
    · simp only [Prod.mk.injEq] at he; obtain ⟨rfl, rfl⟩ := he; simp
    · have : k' ≠ k := by
        rintro rfl
        exact hnd.1 (List.mem_map.2 ⟨_, he, rfl⟩)
      simp [this, ih he hnd.2]

private theorem lookup_none {K B : Type} [DecidableEq K] (m : List (K × B)) (k : K) (h : ∀ p ∈ m, p.1 ≠ k) :
    lookup m k = none := by
  induction m with
  | nil => rfl
  | cons x xs ih =>
    obtain ⟨k', b'⟩ := x
    rw [lookup]
    have := h (k', b') List.mem_cons_self
    simp only at this
    simp [this, ih (fun p hp => h p (List.mem_cons_of_mem _ hp))]

private theorem registerAll_spec (zero : Ty → V) (vs : List (Value V R)) (names : FTy × (V → V → Str × R) → Str)
    (hn : ∀ f ∈ functions vs, Named f (names f)) (ho : ∀ f ∈ functions vs, f.1.out ≠ none) (t : Transport V R) (g : Global) :
    ∃ t' g', registerAll zero t g vs = some (t', g') ∧
      t'.fns = (functions vs).reverse ++ t.fns ∧
      t'.others = (runtimes vs).reverse ++ t.others ∧
      t'.byname = ((functions vs).map fun f => (names f, f.1)).reverse ++ t.byname ∧
      ∀ T, g'.get T = g.get T ++ ((functions vs).filter fun f => f.1.out = some T).map fun f => (names f, f.1.recv) := by
  induction vs generalizing t g with
  | nil => exact ⟨t, g, rfl, rfl, rfl, rfl, fun T => by simp [functions]⟩
  | cons v vs ih =>
    cases v with
    | other ty x =>
      obtain ⟨t', g', h1, h2, h3, h4, h5⟩ := ih hn ho { t with others := (ty, x) :: t.others } g
      exact ⟨t', g', by simp [registerAll, register, h1], h2, by simp [h3, runtimes], h4, h5⟩
    | fn ft code =>
      have hname := hn (ft, code) (by simp [functions])
      have hout := ho (ft, code) (by simp [functions])
      cases hft : ft.out with
      | none => exact absurd hft hout
      | some out =>
        obtain ⟨t', g', h1, h2, h3, h4, h5⟩ := ih (fun f hf => hn f (by simp [functions, hf]))
          (fun f hf => ho f (by simp [functions, hf]))
          { t with fns := (ft, code) :: t.fns, byname := (names (ft, code), ft) :: t.byname }
          ((out, g.get out ++ [(names (ft, code), ft.recv)]) :: g)
        refine ⟨t', g', ?_, by simp [h2, functions], h3, by simp [h4, functions], ?_⟩
        · rw [registerAll, register]
          simp only [hft, Option.bind_some]
          have := hname (zero ft.recv) (zero ft.api)
          simp only at this
          rw [this]
          exact h1
        · intro T
          rw [h5 T]
          by_cases hT : out = T
          · subst hT
            have hg : Global.get ((out, g.get out ++ [(names (ft, code), ft.recv)]) :: g) out =
                g.get out ++ [(names (ft, code), ft.recv)] := by
              simp [Global.get, lookup]
            rw [hg]
            simp [functions, hft]
          · have hg : Global.get ((out, g.get out ++ [(names (ft, code), ft.recv)]) :: g) T = g.get T := by
              simp [Global.get, lookup, hT]
            rw [hg]
            simp [functions, hft, hT]

/-! ## C154: which function a call is for -/

/-- A transport finds, by its name and the type of the closure, the function that was registered under that name, and the
runtime that it needs, in whatever order they were registered, if functions of one type are not registered twice.
Missing: two functions of one type (`resolve_same_type_fails`). -/
theorem resolve_partial (zero : Ty → V) (vs : List (Value V R)) (names : FTy × (V → V → Str × R) → Str)
    (h : Unambiguous vs names) (htypes : ((functions vs).map Prod.fst).Nodup) :
    ∃ t g, registerAll zero {} [] vs = some (t, g) ∧
      ∀ f ∈ functions vs, names f ≠ [] → ∀ api, (f.1.api, api) ∈ runtimes vs → ∀ T, f.1.out = some T →
        resolve t T (names f) = some (f, api) := by
  obtain ⟨t, g, h1, h2, h3, h4, -⟩ := registerAll_spec zero vs names h.named h.results {} []
  refine ⟨t, g, h1, ?_⟩
  intro f hf hne api hapi T hT
  have e1 : lookup t.byname (names f) = some f.1 := by
    apply lookup_mem
    · rw [h4]; simp only [List.append_nil, List.mem_reverse, List.mem_map]; exact ⟨f, hf, rfl⟩
    · rw [h4]
      simp only [List.append_nil, List.map_reverse, List.nodup_reverse, List.map_map]
      exact h.distinct
  have e2 : lookup t.fns f.1 = some f.2 := by
    apply lookup_mem
    · rw [h2]; simpa using hf
    · rw [h2]
      simp only [List.append_nil, List.map_reverse, List.nodup_reverse]
      exact htypes
  have e3 : lookup t.others f.1.api = some api := by
    apply lookup_mem
    · rw [h3]; simpa using hapi
    · rw [h3]
      simp only [List.append_nil, List.map_reverse, List.nodup_reverse]
      exact h.runtimes
  unfold resolve
  simp only [hne, if_false, e1, e2, e3, hT, if_true, Option.map_some]

/-- The example of the documentation: `HelloWorld.Func` and a runtime. -/
private def hello : FTy × (Nat → Nat → Str × Nat) :=
  (⟨.named 0, .named 1, some (.named 2)⟩, fun d api => ("example.HelloWorld".toList, 10 * d + api))
private def helloAll : List (Value Nat Nat) := [.fn hello.1 hello.2, .other (.named 1) 5]

private theorem hello_ok : Unambiguous helloAll (fun _ => "example.HelloWorld".toList) ∧ ((functions helloAll).map Prod.fst).Nodup := by
  refine ⟨⟨?_, ?_, ?_, ?_⟩, by simp [helloAll, functions]⟩
  · intro f hf
    simp only [helloAll, functions, List.mem_singleton] at hf
    subst hf; intro r a; rfl
  · simp [helloAll, functions]
  · intro f hf
    simp only [helloAll, functions, List.mem_singleton] at hf
    subst hf; simp [hello]
  · simp [helloAll, runtimes]

/-- Two functions of one type under two names: the first name leads to the second function. -/
theorem resolve_same_type_fails :
    ∃ (f f' : FTy × (Nat → Nat → Str × Nat)) (names : FTy × (Nat → Nat → Str × Nat) → Str) (t : Transport Nat Nat)
      (g : Global), Named f (names f) ∧ Named f' (names f') ∧ names f ≠ names f' ∧ (f.2 1 2).2 ≠ (f'.2 1 2).2 ∧
      registerAll (fun _ => 0) {} [] [.fn f.1 f.2, .fn f'.1 f'.2, .other (.named 1) 5] = some (t, g) ∧
      resolve t (.named 2) (names f) = some (f', 5) := by
  refine ⟨(⟨.named 0, .named 1, some (.named 2)⟩, fun _ _ => ("a".toList, 0)),
    (⟨.named 0, .named 1, some (.named 2)⟩, fun _ _ => ("b".toList, 1)), fun f => (f.2 0 0).1, _, _,
    fun _ _ => rfl, fun _ _ => rfl, by decide, by decide, rfl, rfl⟩

/-- `TypesJSON` lists the name and the type of the arguments of every function that was registered with this type of
closure, in order, by whichever transport. -/
theorem types_json (zero : Ty → V) (vs ws : List (Value V R)) (names : FTy × (V → V → Str × R) → Str)
    (h : Unambiguous vs names) (h' : Unambiguous ws names) (T : Ty) :
    ∃ t g t' g', registerAll zero {} [] vs = some (t, g) ∧ registerAll zero {} g ws = some (t', g') ∧
      typesJSON g' T = ((functions vs ++ functions ws).filter fun f => f.1.out = some T).map fun f => (names f, f.1.recv) := by
  obtain ⟨t, g, h1, -, -, -, h5⟩ := registerAll_spec zero vs names h.named h.results {} []
  obtain ⟨t', g', h1', -, -, -, h5'⟩ := registerAll_spec zero ws names h'.named h'.results {} g
  refine ⟨t, g, t', g', h1, h1', ?_⟩
  unfold typesJSON
  rw [h5' T, h5 T]
  simp [Global.get, lookup]

/-- A function that returns only its name makes `Register` panic, whatever was registered before. -/
theorem register_no_result_fails (zero : Ty → V) (t : Transport V R) (g : Global) (recv api : Ty) (code : V → V → Str × R) :
    register zero t g (.fn ⟨recv, api, none⟩ code) = none := rfl

/-! ## C155: a call runs the function with its arguments -/

/-- What a call should be: the closure that the function returns for the decoded receiver and the runtime. -/
def Runs (decode : Ty → A → V) (f : FTy × (V → V → Str × R)) (api : V) (args : A) (o : Outcome R) : Prop :=
  o = .closure (f.2 (decode f.1.recv args) api).2

/-- A call of a function that is registered, with its runtime, panics, unless its receiver is of type `any`: for every
function whose receiver is of any other type, hence for every method expression. -/
theorem call_fails (zero : Ty → V) (vs : List (Value V R)) (names : FTy × (V → V → Str × R) → Str)
    (h : Unambiguous vs names) (htypes : ((functions vs).map Prod.fst).Nodup) (methods : Nat → List Nat)
    (alloc : Ty → A → V) :
    ∃ t g, registerAll zero {} [] vs = some (t, g) ∧
      ∀ f ∈ functions vs, names f ≠ [] → ∀ api, (f.1.api, api) ∈ runtimes vs → ∀ T, f.1.out = some T →
        f.1.recv ≠ .any → ∀ args : A, call methods alloc t T (names f) args = .panic := by
  obtain ⟨t, g, h1, h2⟩ := resolve_partial zero vs names h htypes
  refine ⟨t, g, h1, ?_⟩
  intro f hf hne api hapi T hT hany args
  have hr := h2 f hf hne api hapi T hT
  unfold call
  rw [hr]
  have : assignable methods (.ptr f.1.recv) f.1.recv = false := by
    have hsz : ∀ t : Ty, Ty.ptr t ≠ t := by
      intro t ht
      have := congrArg sizeOf ht
      simp at this
    cases hrv : f.1.recv with
    | any => exact absurd hrv hany
    | named n => rfl
    | iface i => rfl
    | ptr t =>
      simp only [assignable, decide_eq_false_iff_not]
      intro he
      cases t with
      | named n => simp at he
      | any => simp at he
      | iface i => simp at he
      | ptr t' => exact hsz _ he
  obtain ⟨ft, code⟩ := f
  simp only at this ⊢
  simp [this]

/-- The example of the documentation: it panics. -/
theorem call_documentation_fails (methods : Nat → List Nat) (alloc : Ty → Nat → Nat) :
    ∃ t g, registerAll (fun _ => 0) {} [] helloAll = some (t, g) ∧ ∀ args : Nat,
      call methods alloc t (.named 2) "example.HelloWorld".toList args = .panic ∧
      ¬ Runs (fun _ a => a) hello 5 args (call methods alloc t (.named 2) "example.HelloWorld".toList args) := by
  obtain ⟨t, g, h1, h2⟩ := call_fails (A := Nat) (fun _ => 0) helloAll _ hello_ok.1 hello_ok.2 methods alloc
  refine ⟨t, g, h1, fun args => ?_⟩
  have := h2 hello (by simp [helloAll, functions]) (by decide) 5 (by simp [helloAll, runtimes, hello]) (.named 2) rfl
    (by decide) args
  refine ⟨this, ?_⟩
  unfold Runs
  rw [this]; simp

/-- A function with a receiver of type `any` is run, with a pointer to the decoded arguments instead of the arguments, and
with the runtime. -/
theorem call_any_partial (zero : Ty → V) (vs : List (Value V R)) (names : FTy × (V → V → Str × R) → Str)
    (h : Unambiguous vs names) (htypes : ((functions vs).map Prod.fst).Nodup) (methods : Nat → List Nat)
    (alloc : Ty → A → V) :
    ∃ t g, registerAll zero {} [] vs = some (t, g) ∧
      ∀ f ∈ functions vs, names f ≠ [] → ∀ api, (f.1.api, api) ∈ runtimes vs → ∀ T, f.1.out = some T →
        f.1.recv = .any → ∀ args : A, Runs alloc f api args (call methods alloc t T (names f) args) := by
  obtain ⟨t, g, h1, h2⟩ := resolve_partial zero vs names h htypes
  refine ⟨t, g, h1, ?_⟩
  intro f hf hne api hapi T hT hany args
  have hr := h2 f hf hne api hapi T hT
  unfold call
  rw [hr]
  obtain ⟨ft, code⟩ := f
  simp only at hany
  simp [hany, assignable, Runs]

/-- A function `func(any, Runtime) (string, func())`. -/
example : (functions (V := Nat) (R := Nat) [.fn ⟨.any, .named 1, some (.named 2)⟩ (fun _ _ => ("f".toList, 3)), .other (.named 1) 5]).length = 1 ∧
    call (fun _ => []) (fun _ (a : Nat) => a)
      { fns := [(⟨.any, .named 1, some (.named 2)⟩, fun d api => ("f".toList, 10 * d + api))], others := [(.named 1, 5)],
        byname := [("f".toList, ⟨.any, .named 1, some (.named 2)⟩)] } (.named 2) "f".toList 4 = .closure 45 :=
  ⟨rfl, rfl⟩

/-- A call by a name that was not registered, with another type of closure than the function has, or without its runtime,
gives the zero value and runs nothing. -/
theorem call_unknown (zero : Ty → V) (vs : List (Value V R)) (names : FTy × (V → V → Str × R) → Str)
    (h : Unambiguous vs names) (methods : Nat → List Nat) (alloc : Ty → A → V) (name : Str) (T : Ty)
    (hno : ∀ f ∈ functions vs, names f = name → f.1.out ≠ some T ∨ ∀ p ∈ runtimes vs, p.1 ≠ f.1.api) :
    ∃ t g, registerAll zero {} [] vs = some (t, g) ∧ ∀ args : A, call methods alloc t T name args = .zero := by
  obtain ⟨t, g, h1, h2, h3, h4, -⟩ := registerAll_spec zero vs names h.named h.results {} []
  refine ⟨t, g, h1, ?_⟩
  intro args
  have : resolve t T name = none := by
    unfold resolve
    by_cases hn : name = []
    · simp [hn]
    · simp only [hn, if_false]
      by_cases hex : ∃ f ∈ functions vs, names f = name
      · obtain ⟨f, hf, rfl⟩ := hex
        have e1 : lookup t.byname (names f) = some f.1 := by
          apply lookup_mem
          · rw [h4]; simp only [List.append_nil, List.mem_reverse, List.mem_map]; exact ⟨f, hf, rfl⟩
          · rw [h4]
            simp only [List.append_nil, List.map_reverse, List.nodup_reverse, List.map_map]
            exact h.distinct
        rw [e1]
        rcases hno f hf rfl with ho | ho
        · simp [ho]
        · have : lookup t.others f.1.api = none := by
            apply lookup_none
            intro p hp
            rw [h3] at hp
            simp only [List.append_nil, List.mem_reverse] at hp
            exact ho p hp
          simp only [this, Option.map_none]
          split
          · split <;> rfl
          · rfl
      · have : lookup t.byname name = none := by
          apply lookup_none
          intro p hp
          rw [h4] at hp
          simp only [List.append_nil, List.mem_reverse, List.mem_map] at hp
          obtain ⟨f, hf, rfl⟩ := hp
          intro he; exact hex ⟨f, hf, he⟩
        rw [this]
  unfold call
  rw [this]

/-- A name that is not registered, and a closure of another type. -/
example : ∀ f ∈ functions helloAll, "example.HelloWorld".toList = "example.HelloWorld".toList →
    f.1.out ≠ some (.named 9) ∨ ∀ p ∈ runtimes helloAll, p.1 ≠ f.1.api := by
  intro f hf _
  simp only [helloAll, functions, List.mem_singleton] at hf
  subst hf
  left; decide

end Verif.Rpc
