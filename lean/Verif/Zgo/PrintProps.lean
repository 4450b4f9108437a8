import Verif.Zgo.PrintModel
/-!
# `println` prints what Go's prints (C226)
-/
namespace Verif.Zgo.Print

namespace Spec

/-- A value of a type: integers of integer types and so on. -/
inductive Has : Ty → Val → Prop where
  | int (b : Basic) (n : Int) (h : b ∈ [.int, .int8, .int16, .int32, .int64, .uint, .uint8, .uint16, .uint32, .uint64, .uintptr]) :
      Has (.basic b) (.num n)
  | float (b : Basic) (f : Float) (h : b = .float32 ∨ b = .float64) : Has (.basic b) (.float f)
  | str (s : Str) : Has (.basic .string) (.str s)
  | bool (b : Bool) : Has (.basic .bool) (.bool b)
  | complex64 : Has (.basic .complex64) .other
  | complex128 : Has (.basic .complex128) .other
  | pointer : Has (.basic .unsafePointer) .other
  | defined (v : Val) : Has .other v

/-- A string of digits denotes a number. -/
def value (s : Str) : Nat := s.foldl (fun n c => 10 * n + (c.toNat - '0'.toNat)) 0

/-- The text is the number in decimal, without leading zeros. -/
def Decimal (n : Int) (s : Str) : Prop :=
  ∃ ds : Str, ds ≠ [] ∧ (∀ c ∈ ds, '0' ≤ c ∧ c ≤ '9') ∧ (ds.head? = some '0' → ds = ['0']) ∧
    (0 ≤ n → s = ds ∧ (value ds : Int) = n) ∧ (n < 0 → s = '-' :: ds ∧ -(value ds : Int) = n)

/-- What Go's `println` writes for one value of these types (the runtime's `printint`, `printuint`, `printstring`, `printbool`). -/
inductive Shows : Val → Str → Prop where
  | num (n : Int) (s : Str) (h : Decimal n s) : Shows (.num n) s
  | str (s : Str) : Shows (.str s) s
  | true : Shows (.bool true) "true".toList
  | false : Shows (.bool false) "false".toList

/-- What Go's `println` writes: the values with spaces between, and a newline. -/
inductive Line : List Val → Str → Prop where
  | none : Line [] ['\n']
  | one (v : Val) (s : Str) (h : Shows v s) : Line [v] (s ++ ['\n'])
  | more (v w : Val) (vs : List Val) (s t : Str) (h : Shows v s) (r : Line (w :: vs) t) : Line (v :: w :: vs) (s ++ [' '] ++ t)

/-- Go's `printfloat`: always a sign, seven digits, and an exponent with a sign and three digits. For floats of up to seven
digits. -/
def float (f : Float) : Str :=
  (if f.neg then '-' else '+') :: digitChar f.digit :: '.' ::
    ((f.rest ++ List.replicate (6 - f.rest.length) 0).map digitChar ++ 'e' :: (if f.exp < 0 then '-' else '+') ::
      [digitChar (Fin.ofNat 10 (f.exp.natAbs / 100)), digitChar (Fin.ofNat 10 (f.exp.natAbs / 10 % 10)),
       digitChar (Fin.ofNat 10 (f.exp.natAbs % 10))])

end Spec

/-- Types whose values are printed as Go prints them. -/
def Ty.Printed : Ty → Prop
  | .basic b => b ∉ [Basic.float32, .float64, .complex64, .complex128, .unsafePointer]
  | .other => False

/-! ## Decimal numbers -/

theorem digitChar_range (d : Nat) (h : d < 10) : '0' ≤ Nat.digitChar d ∧ Nat.digitChar d ≤ '9' := by
  match d, h with
  | 0, _ | 1, _ | 2, _ | 3, _ | 4, _ | 5, _ | 6, _ | 7, _ | 8, _ | 9, _ => decide

theorem digitChar_val (d : Nat) (h : d < 10) : (Nat.digitChar d).toNat - '0'.toNat = d := by
  match d, h with
  | 0, _ | 1, _ | 2, _ | 3, _ | 4, _ | 5, _ | 6, _ | 7, _ | 8, _ | 9, _ => decide

theorem value_append (s t : Str) : Spec.value (s ++ t) = t.foldl (fun n c => 10 * n + (c.toNat - '0'.toNat)) (Spec.value s) := by
  unfold Spec.value
  rw [List.foldl_append]

theorem toDigits_spec (n : Nat) : Nat.toDigits 10 n ≠ [] ∧ (∀ c ∈ Nat.toDigits 10 n, '0' ≤ c ∧ c ≤ '9') ∧
    Spec.value (Nat.toDigits 10 n) = n ∧ ((Nat.toDigits 10 n).head? = some '0' → n = 0) := by
  induction n using Nat.strongRecOn with
  | _ n ih =>
    by_cases h : n < 10
    · rw [Nat.toDigits_of_lt_base h]
      refine ⟨by simp, ?_, ?_, ?_⟩
      · intro c hc
        rw [List.mem_singleton] at hc
        rw [hc]
        exact digitChar_range n h
      · show 10 * 0 + _ = n
        rw [digitChar_val n h]
        omega
      · match n, h with
        | 0, _ | 1, _ | 2, _ | 3, _ | 4, _ | 5, _ | 6, _ | 7, _ | 8, _ | 9, _ => decide
    · obtain ⟨a, b, c, d⟩ := ih (n / 10) (by omega)
      have e : Nat.toDigits 10 n = Nat.toDigits 10 (n / 10) ++ [Nat.digitChar (n % 10)] := by
        rw [Nat.toDigits_eq_if (by omega), if_neg h]
      rw [e]
      refine ⟨by simp, ?_, ?_, ?_⟩
      · intro x hx
        rcases List.mem_append.mp hx with hx | hx
        · exact b x hx
        · rw [List.mem_singleton] at hx
          rw [hx]
          exact digitChar_range _ (Nat.mod_lt _ (by omega))
      · rw [value_append, c]
        show 10 * (n / 10) + _ = n
        rw [digitChar_val _ (Nat.mod_lt _ (by omega))]
        omega
      · intro hh
        exfalso
        have : (Nat.toDigits 10 (n / 10)).head? = some '0' := by
          cases hd : Nat.toDigits 10 (n / 10) with
          | nil => exact absurd hd a
          | cons x l => rw [hd] at hh; simpa using hh
        have := d this
        omega

theorem decimal_spec (n : Int) : Spec.Decimal n (decimal n) := by
  obtain ⟨a, b, c, d⟩ := toDigits_spec n.natAbs
  refine ⟨Nat.toDigits 10 n.natAbs, a, b, ?_, ?_, ?_⟩
  · intro h
    rw [d h]
    rfl
  · intro h
    unfold decimal
    rw [if_neg (by omega)]
    refine ⟨rfl, ?_⟩
    rw [c]
    omega
  · intro h
    unfold decimal
    rw [if_pos h]
    refine ⟨rfl, ?_⟩
    rw [c]
    omega

/-! ## Lines -/

/-- One placeholder. -/
theorem print_one (t : Ty) (v : Val) (h : Spec.Has t v) (hp : t.Printed) : ∃ p a, placeholder t = some p ∧ Spec.Shows v a ∧
    ∀ (fmt : Str) (vs : List Val),
      debugPrint none (p ++ fmt) (v :: vs) = (match debugPrint none fmt vs with | none => none | some b => some (a ++ b)) := by
  cases h with
  | int b n hb =>
    refine ⟨['{', 'd', '}'], decimal n, ?_, .num n _ (decimal_spec n), ?_⟩
    · cases b <;> first | rfl | (exfalso; revert hb; decide)
    · intro fmt vs
      simp [debugPrint, fill]
      cases debugPrint none fmt vs <;> rfl
  | float b f hb => rcases hb with rfl | rfl <;> exact absurd hp (by simp [Ty.Printed])
  | str s =>
    refine ⟨['{', 's', '}'], s, rfl, .str s, ?_⟩
    intro fmt vs
    simp [debugPrint, fill]
    cases debugPrint none fmt vs <;> rfl
  | bool b =>
    refine ⟨['{', '}'], if b then "true".toList else "false".toList, rfl, ?_, ?_⟩
    · cases b
      · exact .false
      · exact .true
    · intro fmt vs
      cases b <;> simp [debugPrint, fill] <;> cases debugPrint none fmt vs <;> rfl
  | complex64 => exact absurd hp (by simp [Ty.Printed])
  | complex128 => exact absurd hp (by simp [Ty.Printed])
  | pointer => exact absurd hp (by simp [Ty.Printed])
  | defined => exact absurd hp (by simp [Ty.Printed])

theorem print_rest : ∀ (args : List (Ty × Val)), (∀ a ∈ args, Spec.Has a.1 a.2 ∧ a.1.Printed) →
    ∃ fmt out, format false (args.map Prod.fst) = some fmt ∧ debugPrint none fmt (args.map Prod.snd) = some out ∧
      ∀ (v : Val) (s : Str), Spec.Shows v s → Spec.Line (v :: args.map Prod.snd) (s ++ out ++ ['\n'])
  | [], _ => ⟨[], [], rfl, rfl, fun v s h => by simpa using Spec.Line.one v s h⟩
  | (t, w) :: args, h => by
    obtain ⟨fmt, out, e1, e2, e3⟩ := print_rest args (fun a ha => h a (List.mem_cons_of_mem _ ha))
    obtain ⟨p, a, q1, q2, q3⟩ := print_one t w (h (t, w) List.mem_cons_self).1 (h (t, w) List.mem_cons_self).2
    refine ⟨[' '] ++ p ++ fmt, [' '] ++ (a ++ out), ?_, ?_, ?_⟩
    · simp [format, q1, e1]
    · have := q3 fmt (args.map Prod.snd)
      rw [e2] at this
      show debugPrint none (' ' :: (p ++ fmt)) (w :: args.map Prod.snd) = _
      simp [debugPrint, this]
    · intro v s hs
      have := Spec.Line.more v w (args.map Prod.snd) s _ hs (e3 w a q2)
      simpa [List.append_assoc] using this

/-- C226: `println` of any values writes what Go's does. -/
def PrintClaim (goFloat : Float → Str) : Prop :=
  ∀ args : List (Ty × Val), (∀ a ∈ args, Spec.Has a.1 a.2) →
    ∃ out, run args = some out ∧
      ((∀ a ∈ args, a.1.Printed) → Spec.Line (args.map Prod.snd) out) ∧
      ∀ (b : Basic) (f : Float), args = [(.basic b, .float f)] → out = goFloat f ++ ['\n']

/-- C226 (part): any number of integers, strings and booleans are written as Go writes them. -/
theorem println_partial (args : List (Ty × Val)) (h : ∀ a ∈ args, Spec.Has a.1 a.2 ∧ a.1.Printed) :
    ∃ out, run args = some out ∧ Spec.Line (args.map Prod.snd) out := by
  match args, h with
  | [], _ => exact ⟨['\n'], rfl, .none⟩
  | (t, w) :: args, h =>
    obtain ⟨fmt, out, e1, e2, e3⟩ := print_rest args (fun a ha => h a (List.mem_cons_of_mem _ ha))
    obtain ⟨p, a, q1, q2, q3⟩ := print_one t w (h (t, w) List.mem_cons_self).1 (h (t, w) List.mem_cons_self).2
    refine ⟨a ++ out ++ ['\n'], ?_, e3 w a q2⟩
    have := q3 fmt (args.map Prod.snd)
    rw [e2] at this
    unfold run compile
    simp [format, q1, e1, println, this]

/-- What has a placeholder is written. -/
theorem fill_total (t : Ty) (v : Val) (h : Spec.Has t v) (p : Str) (hp : placeholder t = some p) :
    ∃ a, ∀ (fmt : Str) (vs : List Val),
      debugPrint none (p ++ fmt) (v :: vs) = (match debugPrint none fmt vs with | none => none | some b => some (a ++ b)) := by
  by_cases hpr : t.Printed
  · obtain ⟨q, a, h1, _, h3⟩ := print_one t v h hpr
    rw [h1] at hp
    cases hp
    exact ⟨a, h3⟩
  · cases h with
    | float b f hb =>
      refine ⟨scientific f, ?_⟩
      rcases hb with rfl | rfl <;> cases hp <;> intro fmt vs <;> simp [debugPrint, fill] <;>
        cases debugPrint none fmt vs <;> rfl
    | int b n hb => exfalso; apply hpr; cases b <;> first | (simp [Ty.Printed]; done) | (exfalso; revert hb; decide)
    | str => exfalso; apply hpr; simp [Ty.Printed]
    | bool => exfalso; apply hpr; simp [Ty.Printed]
    | complex64 => cases hp
    | complex128 => cases hp
    | pointer => cases hp
    | defined => cases hp

theorem format_total : ∀ (args : List (Ty × Val)) (first : Bool), (∀ a ∈ args, Spec.Has a.1 a.2) →
    (format first (args.map Prod.fst) = none ↔ ∃ a ∈ args, placeholder a.1 = none) ∧
    ∀ fmt, format first (args.map Prod.fst) = some fmt → ∃ out, debugPrint none fmt (args.map Prod.snd) = some out
  | [], first, _ => ⟨by simp [format], fun fmt h => by cases h; exact ⟨[], rfl⟩⟩
  | (t, w) :: args, first, h => by
    obtain ⟨i1, i2⟩ := format_total args false (fun a ha => h a (List.mem_cons_of_mem _ ha))
    cases hp : placeholder t with
    | none =>
      refine ⟨⟨fun _ => ⟨(t, w), List.mem_cons_self, hp⟩, fun _ => by simp [format, hp]⟩, ?_⟩
      intro fmt hf
      simp [format, hp] at hf
    | some p =>
      obtain ⟨a, ha⟩ := fill_total t w (h (t, w) List.mem_cons_self) p hp
      cases hr : format false (args.map Prod.fst) with
      | none =>
        obtain ⟨b, hb, hb2⟩ := i1.mp hr
        refine ⟨⟨fun _ => ⟨b, List.mem_cons_of_mem _ hb, hb2⟩, fun _ => by simp [format, hp, hr]⟩, ?_⟩
        intro fmt hf
        simp [format, hp, hr] at hf
      | some rest =>
        constructor
        · constructor
          · intro hf
            simp [format, hp, hr] at hf
          · rintro ⟨b, hb, hb2⟩
            rcases List.mem_cons.mp hb with rfl | hb
            · rw [hp] at hb2; cases hb2
            · have := i1.mpr ⟨b, hb, hb2⟩
              rw [hr] at this; cases this
        · intro fmt hf
          simp [format, hp, hr] at hf
          obtain ⟨out, ho⟩ := i2 rest hr
          have := ha rest (args.map Prod.snd)
          rw [ho] at this
          dsimp only at this
          subst hf
          cases first
          · refine ⟨' ' :: (a ++ out), ?_⟩
            show debugPrint none (' ' :: (p ++ rest)) (w :: args.map Prod.snd) = _
            simp [debugPrint, this]
          · exact ⟨a ++ out, this⟩

/-- C226: a call compiles exactly if every argument is of a predeclared type other than the complex ones and
`unsafe.Pointer`; what compiles prints something. -/
theorem compiled_iff (args : List (Ty × Val)) (h : ∀ a ∈ args, Spec.Has a.1 a.2) :
    (∃ out, run args = some out) ↔
      ∀ a ∈ args, ∃ b, a.1 = .basic b ∧ b ≠ .complex64 ∧ b ≠ .complex128 ∧ b ≠ .unsafePointer := by
  have hpl : ∀ t : Ty, placeholder t ≠ none ↔ ∃ b, t = .basic b ∧ b ≠ .complex64 ∧ b ≠ .complex128 ∧ b ≠ .unsafePointer := by
    intro t
    cases t with
    | other => simp [placeholder]
    | basic b => cases b <;> simp [placeholder]
  obtain ⟨i1, i2⟩ := format_total args true h
  constructor
  · rintro ⟨out, ho⟩ a ha
    rw [← hpl]
    intro hn
    have := i1.mpr ⟨a, ha, hn⟩
    unfold run compile at ho
    rw [this] at ho
    cases ho
  · intro hall
    cases hf : format true (args.map Prod.fst) with
    | none =>
      obtain ⟨a, ha, hn⟩ := i1.mp hf
      exact absurd hn ((hpl a.1).mpr (hall a ha))
    | some fmt =>
      obtain ⟨out, ho⟩ := i2 fmt hf
      refine ⟨out ++ ['\n'], ?_⟩
      unfold run compile println
      rw [hf]
      dsimp only
      rw [ho]

/-- C226: no float that is not negative is written as Go writes it. -/
theorem float_differs (b : Basic) (hb : b = .float32 ∨ b = .float64) (f : Float) (hn : f.neg = false) (out : Str)
    (h : run [(.basic b, .float f)] = some out) : out ≠ Spec.float f ++ ['\n'] := by
  have e : run [(.basic b, .float f)] = some (scientific f ++ ['\n']) := by
    rcases hb with rfl | rfl <;> simp [run, compile, format, placeholder, println, debugPrint, fill]
  rw [e] at h
  injection h with h
  subst h
  intro hh
  unfold scientific Spec.float at hh
  rw [hn] at hh
  simp only [Bool.false_eq_true, if_false, List.nil_append, List.cons_append] at hh
  injection hh with h1 _
  have : ∀ d : Fin 10, digitChar d ≠ '+' := by decide
  exact this _ h1

/-- C226: it is not so for all types: floats are written otherwise. -/
theorem println_fails : ¬ PrintClaim Spec.float := by
  intro h
  obtain ⟨out, ho, _, hf⟩ := h [(.basic .float64, .float { neg := false, digit := 1, rest := [5], exp := 0 })]
    (by intro a ha; rw [List.mem_singleton] at ha; subst ha; exact .float _ _ (.inr rfl))
  exact float_differs .float64 (.inr rfl) _ rfl out ho (hf _ _ rfl)

/-- C226: nor do defined types compile, whatever they are of. -/
theorem defined_fails (v : Val) (args : List (Ty × Val)) (h : ∀ a ∈ args, Spec.Has a.1 a.2) (hm : (Ty.other, v) ∈ args) :
    run args = none := by
  cases hr : run args with
  | none => rfl
  | some out =>
    obtain ⟨b, hb, _⟩ := (compiled_iff args h).mp ⟨out, hr⟩ _ hm
    cases hb

/-- `println("n", -12, true)`. -/
example : run [(.basic .string, .str ['n']), (.basic .int, .num (-12)), (.basic .bool, .bool true)] =
    some "n -12 true\n".toList := by decide +kernel

example : ∀ a ∈ [((Ty.basic .string), Val.str ['n']), (.basic .int, .num (-12)), (.basic .bool, .bool true)],
    Spec.Has a.1 a.2 ∧ a.1.Printed := by
  intro a ha
  simp only [List.mem_cons, List.not_mem_nil, or_false] at ha
  rcases ha with rfl | rfl | rfl
  · exact ⟨.str _, by simp [Ty.Printed]⟩
  · exact ⟨.int _ _ (by decide), by simp [Ty.Printed]⟩
  · exact ⟨.bool _, by simp [Ty.Printed]⟩

/-- Go's text of 1.5. -/
example : Spec.float { neg := false, digit := 1, rest := [5], exp := 0 } = "+1.500000e+000".toList := by decide +kernel

end Verif.Zgo.Print
