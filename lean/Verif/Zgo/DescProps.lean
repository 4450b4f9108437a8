import Verif.Zgo.DescModel
import Verif.Zgo.TypeSpec
/-!
# C219: a value in an interface carries the description of its type
-/
namespace Verif.Zgo.Typ

/-- The name Go gives a basic type (the Go specification, "Types"; `types.go:169-206`). -/
def Basic.goName : Basic → Str
  | .bool => ['b', 'o', 'o', 'l']
  | .int => ['i', 'n', 't']
  | .int8 => ['i', 'n', 't', '8']
  | .int16 => ['i', 'n', 't', '1', '6']
  | .int32 => ['i', 'n', 't', '3', '2']
  | .int64 => ['i', 'n', 't', '6', '4']
  | .uint => ['u', 'i', 'n', 't']
  | .uint8 => ['u', 'i', 'n', 't', '8']
  | .uint16 => ['u', 'i', 'n', 't', '1', '6']
  | .uint32 => ['u', 'i', 'n', 't', '3', '2']
  | .uint64 => ['u', 'i', 'n', 't', '6', '4']
  | .uintptr => ['u', 'i', 'n', 't', 'p', 't', 'r']
  | .float32 => ['f', 'l', 'o', 'a', 't', '3', '2']
  | .float64 => ['f', 'l', 'o', 'a', 't', '6', '4']
  | .string => ['s', 't', 'r', 'i', 'n', 'g']
  | .complex64 => ['c', 'o', 'm', 'p', 'l', 'e', 'x', '6', '4']
  | .complex128 => ['c', 'o', 'm', 'p', 'l', 'e', 'x', '1', '2', '8']
  | .untypedInt => ['i', 'n', 't']
  | .untypedBool => ['u', 'n', 't', 'y', 'p', 'e', 'd', ' ', 'b', 'o', 'o', 'l']
  | .untypedRune => ['u', 'n', 't', 'y', 'p', 'e', 'd', ' ', 'r', 'u', 'n', 'e']
  | .untypedFloat => ['u', 'n', 't', 'y', 'p', 'e', 'd', ' ', 'f', 'l', 'o', 'a', 't']
  | .untypedString => ['u', 'n', 't', 'y', 'p', 'e', 'd', ' ', 's', 't', 'r', 'i', 'n', 'g']
  | .untypedComplex => ['u', 'n', 't', 'y', 'p', 'e', 'd', ' ', 'c', 'o', 'm', 'p', 'l', 'e', 'x']
  | .untypedNil => ['u', 'n', 't', 'y', 'p', 'e', 'd', ' ', 'n', 'i', 'l']
  | .unsafePointer => ['u', 'n', 's', 'a', 'f', 'e', '.', 'P', 'o', 'i', 'n', 't', 'e', 'r']

/-- The description a type should have (`types.go:166-220`). -/
def ideal : Ty → Option Desc
  | .basic b => some (.runtime b.goName)
  | .named _ name _ => some (.own name)
  | .pointer e => (ideal e).map .pointer
  | _ => none

/-- The types with a description that Zig accepts: integers and floats, types defined in the package itself as a
string, an unsafe pointer or a struct, and pointers to them, to any depth (`types.go:166-220`). -/
def Described (cur : Str) (ds : List Decl) : Ty → Prop
  | .basic b => b ∈ [Basic.int, .int8, .int16, .int32, .int64, .uint, .uint8, .uint16, .uint32, .uint64, .uintptr,
      .float32, .float64, .untypedInt]
  | .named (some p) name _ => p.name = cur ∧ ∃ d ∈ ds, d.name = name ∧
      ((∃ fs, d.body = .struct fs) ∨ d.body = .basic .string ∨ d.body = .basic .unsafePointer)
  | .pointer e => Described cur ds e
  | _ => False

theorem accepted_iff (d : Decl) : d.accepted = true ↔
    (∃ fs, d.body = .struct fs) ∨ d.body = .basic .string ∨ d.body = .basic .unsafePointer := by
  obtain ⟨n, b⟩ := d
  cases b with
  | basic b => cases b <;> simp [Decl.accepted, kindOf, voidMembers]
  | _ => simp [Decl.accepted, kindOf, voidMembers]

theorem text_inj {a b c : Str} (p : Str) (h : p ++ (a ++ c) = p ++ (b ++ c)) : a = b :=
  List.append_cancel_right (List.append_cancel_left h)

theorem denotes_runtime {ds : List Decl} {n : Str} {d : Desc} (h : Denotes ds (['&', 'g', 'o', '.', '@', '"'] ++ (n ++ ['.', '(', 't', 'y', 'p', 'e', ')', '"'])) d) :
    n ∈ runtimeNames ∧ d = .runtime n := by
  generalize hs : ['&', 'g', 'o', '.', '@', '"'] ++ (n ++ ['.', '(', 't', 'y', 'p', 'e', ')', '"']) = s at h
  cases h with
  | runtime m hm =>
    have := text_inj _ hs
    subst this
    exact ⟨hm, rfl⟩
  | own d hd ok => simp at hs
  | pointer s d h => simp at hs

theorem denotes_own {ds : List Decl} {n : Str} {d : Desc} (h : Denotes ds (['&', '@', '"'] ++ (n ++ ['.', '(', 't', 'y', 'p', 'e', ')', '"'])) d) :
    (∃ e ∈ ds, e.name = n ∧ e.accepted = true) ∧ d = .own n := by
  generalize hs : ['&', '@', '"'] ++ (n ++ ['.', '(', 't', 'y', 'p', 'e', ')', '"']) = s at h
  cases h with
  | runtime m hm => simp at hs
  | own d hd ok =>
    have := text_inj _ hs
    subst this
    exact ⟨⟨d, hd, rfl, ok⟩, rfl⟩
  | pointer s d h => simp at hs

theorem denotes_pointer {ds : List Decl} {s : Str} {d : Desc} (h : Denotes ds (['g', 'o', '.', 'r', 'p', 't', 'r', '(', 'g', 'o', 't', 'o', ',', ' '] ++ (s ++ [')'])) d) :
    ∃ e, Denotes ds s e ∧ d = .pointer e := by
  generalize hs : ['g', 'o', '.', 'r', 'p', 't', 'r', '(', 'g', 'o', 't', 'o', ',', ' '] ++ (s ++ [')']) = x at h
  cases h with
  | runtime m hm => simp at hs
  | own d hd ok => simp at hs
  | pointer t e h =>
    have := text_inj _ hs
    subst this
    exact ⟨e, h, rfl⟩

/-- The misspelled texts stand for nothing. -/
theorem denotes_misspelled {ds : List Decl} {s : Str} {d : Desc} (h : Denotes ds s d)
    (hs : s ∈ [['&', 'g', 'o', '.', '@', '"', 's', 't', 'r', 'i', 'n', 'g', ')', '"'], ['&', 'g', 'o', '.', '@', '"', 'c', 'o', 'm', 'p', 'l', 'e', 'x', '6', '4', ')', '"'], ['&', 'g', 'o', '.', '@', '"', 'c', 'o', 'm', 'p', 'l', 'e', 'x', '1', '2', '8', ')', '"']]) : False := by
  cases h with
  | runtime m hm =>
    revert hs
    revert m
    decide +kernel
  | own d hd ok => simp at hs
  | pointer t e h => simp at hs

theorem dotted_notin {ds : List Decl} (hds : ∀ d ∈ ds, Ident d.name) {p name : Str}
    (h : ∃ e ∈ ds, e.name = p ++ ('.' :: name) ∧ e.accepted = true) : False := by
  obtain ⟨e, he, hn, _⟩ := h
  have := (hds e he).2 '.' (by rw [hn]; simp)
  exact this (by simp [punctuation])

theorem described_basic (b : Basic) (h : b ∈ [Basic.int, .int8, .int16, .int32, .int64, .uint, .uint8, .uint16, .uint32,
      .uint64, .uintptr, .float32, .float64, .untypedInt]) :
    b.describe = some (['&', 'g', 'o', '.', '@', '"'] ++ (b.goName ++ ['.', '(', 't', 'y', 'p', 'e', ')', '"'])) ∧ b.goName ∈ runtimeNames := by
  revert h
  cases b <;> decide +kernel

/-- A value put in an interface is accompanied by a description if and only if its type is an integer or float type, or
one that the package itself defines as a string, an unsafe pointer or a struct, or a pointer to such a type; every other
value makes the compiler panic or Zig refuse the program. -/
theorem described_iff (cur : Str) (ds : List Decl) (hds : ∀ d ∈ ds, Ident d.name) (t : Ty) :
    (∃ s d, describe cur t = some s ∧ Denotes ds s d) ↔ Described cur ds t := by
  cases t with
  | basic b =>
    constructor
    · rintro ⟨s, d, h, hd⟩
      cases b <;> simp only [describe, Basic.describe, Option.some.injEq, reduceCtorEq] at h
      all_goals first
        | (simp [Described]; done)
        | exact (denotes_misspelled hd (by rw [← h]; decide)).elim
        | skip
      case bool =>
        subst h
        have := (denotes_runtime (n := ['b', 'o', 'o', 'l']) hd).1
        exact absurd this (by decide)
    · intro h
      have := described_basic b h
      exact ⟨_, _, this.1, .runtime _ this.2⟩
  | named p name args =>
    cases p with
    | none =>
      simp only [Described, iff_false]
      rintro ⟨s, d, h, hd⟩
      simp only [describe, Option.some.injEq] at h
      subst h
      have := (denotes_own (n := ['g', 'o'] ++ ('.' :: name)) hd).1
      exact dotted_notin hds this
    | some p =>
      simp only [Described, describe]
      by_cases hp : p.name = cur
      · simp only [hp, if_true, true_and]
        constructor
        · rintro ⟨s, d, h, hd⟩
          have h := Option.some.inj h
          subst h
          obtain ⟨⟨e, he, hn, ok⟩, _⟩ := denotes_own hd
          exact ⟨e, he, hn, (accepted_iff e).mp ok⟩
        · rintro ⟨e, he, hn, hb⟩
          subst hn
          exact ⟨_, _, rfl, .own e he ((accepted_iff e).mpr hb)⟩
      · simp only [hp, if_false, false_and, iff_false]
        rintro ⟨s, d, h, hd⟩
        have h := Option.some.inj h
        subst h
        have := (denotes_own (n := p.name ++ ('.' :: name)) (by simpa using hd)).1
        exact dotted_notin hds this
  | pointer e =>
    have ih := described_iff cur ds hds e
    simp only [Described, ← ih, describe, Option.map_eq_some_iff]
    constructor
    · rintro ⟨s, d, ⟨x, hx, h⟩, hd⟩
      subst h
      obtain ⟨e2, he, _⟩ := denotes_pointer hd
      exact ⟨x, e2, hx, he⟩
    · rintro ⟨s, d, h, hd⟩
      exact ⟨_, _, ⟨s, h, rfl⟩, .pointer s d hd⟩
  | _ => simp [describe, Described]

/-- And the description is that of the value's own type: the runtime's of the basic type, the package's of the defined
type of that name, or one of a pointer to it. -/
theorem described_own (cur : Str) (ds : List Decl) (t : Ty) (s : Str) (d : Desc)
    (ht : Described cur ds t) (h : describe cur t = some s) (hd : Denotes ds s d) : ideal t = some d := by
  cases t with
  | basic b =>
    have := described_basic b ht
    simp only [describe, this.1, Option.some.injEq] at h
    subst h
    rw [(denotes_runtime hd).2]
    rfl
  | named p name args =>
    cases p with
    | none => simp [Described] at ht
    | some p =>
      simp only [Described] at ht
      simp only [describe, ht.1, if_true] at h
      have h := Option.some.inj h
      subst h
      rw [(denotes_own hd).2]
      rfl
  | pointer e =>
    simp only [Described] at ht
    simp only [describe, Option.map_eq_some_iff] at h
    obtain ⟨x, hx, h⟩ := h
    subst h
    obtain ⟨e2, he, hd2⟩ := denotes_pointer hd
    rw [ideal, described_own cur ds e x e2 ht hx he, hd2]
    rfl
  | _ => simp [Described] at ht

example : (∀ d ∈ [(⟨['P'], .struct .nil⟩ : Decl)], Ident d.name) ∧
    Described ['m', 'a', 'i', 'n'] [⟨['P'], .struct .nil⟩] (.pointer (.named (some ⟨['m', 'a', 'i', 'n'], ['m', 'a', 'i', 'n']⟩) ['P'] .nil)) ∧
    describe ['m', 'a', 'i', 'n'] (.pointer (.named (some ⟨['m', 'a', 'i', 'n'], ['m', 'a', 'i', 'n']⟩) ['P'] .nil)) =
      some (['g', 'o', '.', 'r', 'p', 't', 'r', '(', 'g', 'o', 't', 'o', ',', ' ', '&', '@', '"', 'P', '.', '(', 't', 'y', 'p', 'e', ')', '"', ')']) := by
  refine ⟨?_, ?_, by decide +kernel⟩
  · simp [Ident, punctuation]
  · simp [Described]

/-- Texts, truth values, errors, slices, functions, the types of other packages and numbers with a name of their own
have no description. -/
theorem described_fails (ds : List Decl) (hds : ∀ d ∈ ds, Ident d.name) (t : Ty)
    (h : t ∈ [Ty.basic .string, .basic .bool, .named none ['e', 'r', 'r', 'o', 'r'] .nil, .slice (.basic .int), .func false .nil .nil,
      .named (some ⟨['t', 'i', 'm', 'e'], ['t', 'i', 'm', 'e']⟩) ['T', 'i', 'm', 'e'] .nil]) :
    ¬ ∃ s d, describe ['m', 'a', 'i', 'n'] t = some s ∧ Denotes ds s d := by
  rw [described_iff _ ds hds]
  simp only [List.mem_cons, List.not_mem_nil, or_false] at h
  rcases h with rfl | rfl | rfl | rfl | rfl | rfl <;> simp [Described]

/-- Nor has `type Celsius float64`. -/
theorem defined_number_fails : ¬ ∃ s d, describe ['m', 'a', 'i', 'n'] (.named (some ⟨['m', 'a', 'i', 'n'], ['m', 'a', 'i', 'n']⟩) ['C'] .nil) = some s ∧
    Denotes [⟨['C'], .basic .float64⟩] s d := by
  rw [described_iff _ _ (by simp [Ident, punctuation])]
  simp [Described]

end Verif.Zgo.Typ
