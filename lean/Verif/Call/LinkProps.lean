import Verif.Call.LinkModel
import Verif.Call.TagProps
import Mathlib.Data.List.Forall2
import Mathlib.Tactic.Linarith
import Mathlib.Tactic.Ring
import Mathlib.Tactic.Positivity

/-! # Properties of linking and calling (C97-C101) -/

namespace Verif.Call

/-! ## Specification -/

namespace Spec

/-- The symbol by preference: that of the first name there is one for. -/
def preferred (table : Lookup) (names : List (List Char)) : Option Ptr := names.findSome? table

/-- Standard C integer types on Linux for amd64: whether they are signed and how many bits they have. -/
def cInt : List (String × Bool × Nat) :=
  [("char", true, 8), ("signed_char", true, 8), ("unsigned_char", false, 8), ("short", true, 16),
   ("unsigned_short", false, 16), ("int", true, 32), ("unsigned_int", false, 32), ("long", true, 64),
   ("unsigned_long", false, 64), ("long_long", true, 64), ("unsigned_long_long", false, 64),
   ("size_t", false, 64), ("int8_t", true, 8), ("int16_t", true, 16), ("int32_t", true, 32),
   ("int64_t", true, 64), ("uint8_t", false, 8), ("uint16_t", false, 16), ("uint32_t", false, 32),
   ("uint64_t", false, 64)]

/-- The integers of a type. -/
def Fits (signed : Bool) (w : Nat) (n : Int) : Prop :=
  if signed then -2 ^ (w - 1) ≤ n ∧ n < 2 ^ (w - 1) else 0 ≤ n ∧ n < 2 ^ w

/-- What a C function reads from the bits it is passed. -/
def reads (signed : Bool) (w : Nat) (b : Nat) : Int :=
  if signed ∧ 2 ^ (w - 1) ≤ b then (b : Int) - 2 ^ w else b

/-- What a C function takes the bytes at a pointer to a text for. -/
def cString (bytes : List UInt8) : List UInt8 := bytes.takeWhile (· ≠ 0)

/-- A Go integer of a kind. -/
def GoInt (k : Kind) (n : Int) : Prop := ∃ s w, k.integer = some (s, w) ∧ Fits s w n

variable {F : Type}

/-- How a C function with a parameter of the given type should see a Go value. -/
inductive Arrives (fl : Floats F) : Head → V F → CArg F → Prop where
  /-- An integer: so many bits of it. -/
  | int {h : Head} {k : Kind} {n : Int} {name : String} {s : Bool} {w b : Nat} :
      (name, s, w) ∈ cInt → h.name = name.toList → b < 2 ^ w → (2 ^ w : Int) ∣ b - n →
      Arrives fl h (.int k n) (.int w b)
  | float {h : Head} {x : F} : h.name = "float".toList → Arrives fl h (.float .float32 x) (.float x)
  | double {h : Head} {x : F} : h.name = "double".toList → Arrives fl h (.float .float64 x) (.double x)
  /-- Numbers of another type are converted, as Go converts them. -/
  | narrow {h : Head} {x : F} : h.name = "float".toList →
      Arrives fl h (.float .float64 x) (.float (fl.round .float32 x))
  | widen {h : Head} {x : F} : h.name = "double".toList →
      Arrives fl h (.float .float32 x) (.double (fl.round .float64 x))
  | intFloat {h : Head} {k : Kind} {n : Int} : h.name = "float".toList →
      Arrives fl h (.int k n) (.float (fl.ofInt .float32 n))
  | intDouble {h : Head} {k : Kind} {n : Int} : h.name = "double".toList →
      Arrives fl h (.int k n) (.double (fl.ofInt .float64 n))
  | floatInt {h : Head} {k k' : Kind} {x : F} {name : String} {s : Bool} {w b : Nat} :
      (name, s, w) ∈ cInt → h.name = name.toList → k'.integer = some (s, w) → b < 2 ^ w →
      (2 ^ w : Int) ∣ b - fl.toInt k' x → Arrives fl h (.float k x) (.int w b)
  /-- A pointer. -/
  | pointer {h : Head} {k : Kind} {p : Ptr} : Arrives fl h (.pointer k p) (.pointer p)
  /-- The elements of a slice. -/
  | slice {h : Head} {p : Ptr} {l : Nat} : Arrives fl h (.slice p l) (.pointer p)
  /-- A text, up to its first zero byte, and it ends within the memory it is in. -/
  | text {h : Head} {s bytes : List UInt8} : cString bytes = cString s → 0 ∈ bytes →
      Arrives fl h (.string s) (.text bytes)

/-- The pairs of a parameter and a Go value that the code supports. -/
inductive Supported : Head → V F → Prop where
  | int {h : Head} {k : Kind} {n : Int} {name : String} {s : Bool} {w : Nat} :
      (name, s, w) ∈ cInt → h.name = name.toList → GoInt k n → Supported h (.int k n)
  | float {h : Head} {k : Kind} {x : F} : k = .float32 ∨ k = .float64 →
      (h.name = "float".toList ∨ h.name = "double".toList ∨ ∃ name s w, (name, s, w) ∈ cInt ∧ h.name = name.toList) →
      Supported h (.float k x)
  | intFloat {h : Head} {k : Kind} {n : Int} : GoInt k n → h.name = "float".toList ∨ h.name = "double".toList →
      Supported h (.int k n)
  | pointer {h : Head} {k : Kind} {p : Ptr} : k = .pointer ∨ k = .unsafePointer →
      (h.name = "void".toList ∨ ∃ name s w, (name, s, w) ∈ cInt ∧ h.name = name.toList) →
      Supported h (.pointer k p)
  | slice {h : Head} {p : Ptr} {l : Nat} : h.free = some '&' →
      h.name = "void".toList ∨ h.name = "char".toList → Supported h (.slice p l)
  | text {h : Head} {s : List UInt8} : h.free = some '&' → h.name = "char".toList →
      Supported h (.string s)

/-- Arguments are numbered from one, as in every tag that was read. -/
def Numbered (hs : List Head) : Prop := ∀ i h, hs[i]? = some h → h.maps = i + 1

end Spec

open Spec

/-! ## C97: symbols -/

theorem foldl_last {α β : Type} (g : α → β) : ∀ (xs : List α) (b : β) (a : α),
    (xs ++ [a]).foldl (fun _ x => g x) b = g a
  | [], _, _ => rfl
  | x :: xs, b, a => by simpa using foldl_last g xs (g x) a

/-- **C97** Exactly: the symbol a function is linked to is that of its last name in the last library, if
there is one, and none otherwise, whatever the other names and libraries have. -/
theorem resolve_exact (tables : List Lookup) (names : List (List Char)) (table : Lookup) (name : List Char) :
    resolve (tables ++ [table]) (names ++ [name]) = table name := by
  rw [resolve, lookups, List.foldl_append, List.foldl_cons, List.foldl_nil, foldl_last]

/-- **C97, partial**: a function with one name is linked to the symbol of that name, in the last library. -/
theorem preferred_partial (table : Lookup) (name : List Char) :
    resolve [table] [name] = preferred table [name] := by
  rw [show resolve [table] [name] = table name from resolve_exact [] [] table name]
  simp only [preferred, List.findSome?]
  cases table name <;> rfl

/-- A library with a symbol and without another. -/
def oneSymbol (a : List Char) (p : Ptr) : Lookup := fun s => if s = a then some p else none

/-- **C97, violated**: names are not taken in order of preference. If the preferred name is there and an
alternative is not, the function is not linked at all; if both are there, the alternative is taken. -/
theorem preference_fails (a b : List Char) (h : a ≠ b) (p q : Ptr) (hpq : p ≠ q) :
    (preferred (oneSymbol a p) [a, b] = some p ∧ resolve [oneSymbol a p] [a, b] = none) ∧
    (∃ table : Lookup, preferred table [a, b] = some p ∧ resolve [table] [a, b] = some q) := by
  refine ⟨⟨by simp [preferred, oneSymbol], ?_⟩, fun s => if s = a then some p else some q, ?_, ?_⟩
  · rw [show resolve [oneSymbol a p] [a, b] = oneSymbol a p b from resolve_exact [] [a] _ b]
    simp [oneSymbol, Ne.symm h]
  · simp [preferred]
  · rw [show resolve [fun s => if s = a then some p else some q] [a, b] = _ from resolve_exact [] [a] _ b]
    simp [Ne.symm h]

/-- **C97, violated**: a function that is only in the first of two libraries is not linked. -/
theorem libraries_fails (a : List Char) (p : Ptr) (other : Lookup) (h : other a = none) :
    resolve [oneSymbol a p, other] [a] = none := by
  rw [show resolve [oneSymbol a p, other] [a] = other a from resolve_exact [oneSymbol a p] [] other a, h]

example : resolve [oneSymbol "abs".toList 7] ["abs".toList] = some 7 := by decide

/-! ## C98, C99: arguments -/

section
variable {F : Type}

theorem cInt_kind {name : String} {s : Bool} {w : Nat} (h : (name, s, w) ∈ cInt) :
    (lookupKind name.toList).integer = some (s, w) ∧ normal (lookupKind name.toList) = some (lookupKind name.toList) ∧
      (0 < w) ∧ lookupKind name.toList ≠ .string ∧ lookupKind name.toList ≠ .uintptr ∧
      lookupKind name.toList ≠ .pointer ∧ lookupKind name.toList ≠ .unsafePointer := by
  have : ∀ x ∈ cInt, (lookupKind x.1.toList).integer = some (x.2.1, x.2.2) ∧
      normal (lookupKind x.1.toList) = some (lookupKind x.1.toList) ∧ 0 < x.2.2 ∧
      lookupKind x.1.toList ≠ .string ∧ lookupKind x.1.toList ≠ .uintptr ∧
      lookupKind x.1.toList ≠ .pointer ∧ lookupKind x.1.toList ≠ .unsafePointer := by decide +kernel
  exact this _ h

theorem emod_bits (n : Int) (w : Nat) :
    (n.emod (2 ^ w)).toNat < 2 ^ w ∧ (2 ^ w : Int) ∣ ((n.emod (2 ^ w)).toNat : Int) - n := by
  have h0 : (0 : Int) < 2 ^ w := by positivity
  have h1 : 0 ≤ n.emod (2 ^ w) := Int.emod_nonneg _ (by omega)
  have h2 : n.emod (2 ^ w) < 2 ^ w := Int.emod_lt_of_pos _ h0
  refine ⟨?_, ?_⟩
  · have : ((n.emod (2 ^ w)).toNat : Int) < ((2 ^ w : Nat) : Int) := by
      rw [Int.toNat_of_nonneg h1]; push_cast; exact h2
    exact_mod_cast this
  · rw [Int.toNat_of_nonneg h1]
    have := Int.emod_add_mul_ediv n (2 ^ w)
    refine ⟨-(n / 2 ^ w), ?_⟩
    change n % 2 ^ w - n = _
    rw [Int.mul_neg]
    omega

theorem wrap_dvd {k : Kind} {s : Bool} {w : Nat} (h : k.integer = some (s, w)) (n : Int) :
    (2 ^ w : Int) ∣ wrap k n - n := by
  have h0 : (0 : Int) < 2 ^ w := by positivity
  cases s with
  | false =>
    simp only [wrap, h]
    have := Int.emod_add_mul_ediv n (2 ^ w)
    refine ⟨-(n / 2 ^ w), ?_⟩
    change n % 2 ^ w - n = _
    rw [Int.mul_neg]
    omega
  | true =>
    simp only [wrap, h]
    have := Int.dvd_bmod_sub_self (x := n) (m := 2 ^ w)
    push_cast at this
    exact this

theorem bits_of_wrap {k : Kind} {s : Bool} {w : Nat} (h : k.integer = some (s, w)) (n : Int) :
    (2 ^ w : Int) ∣ (((wrap k n).emod (2 ^ w)).toNat : Int) - n := by
  have h1 := (emod_bits (wrap k n) w).2
  have h2 := wrap_dvd h n
  have := Int.dvd_add h1 h2
  rwa [show (((wrap k n).emod (2 ^ w)).toNat : Int) - wrap k n + (wrap k n - n) =
    (((wrap k n).emod (2 ^ w)).toNat : Int) - n by ring] at this

theorem cString_terminated (s : List UInt8) :
    cString (nullTerminated s) = cString s ∧ 0 ∈ nullTerminated s := by
  rw [nullTerminated]
  split
  · rename_i h
    exact ⟨rfl, List.mem_of_getLast? h⟩
  · refine ⟨?_, by simp⟩
    simp only [cString]
    induction s with
    | nil => rfl
    | cons a s ih =>
      simp only [List.cons_append, List.takeWhile_cons]
      rename_i hs
      have : s.getLast? ≠ some 0 := by
        intro e
        apply hs
        rw [List.getLast?_cons, e]
        rfl
      rw [ih this]

theorem number_of_int {k : Kind} {x : Bool × Nat} (h : k.integer = some x) : k.number = true := by
  simp [Kind.number, h]

theorem sendValue_other {fl : Floats F} {rune : RuneText} {arg : Head} {v : V F} {t : Kind}
    (hne : v.kind ≠ lookupKind arg.name) (hno : normal (lookupKind arg.name) = some t)
    (hc : convertible v.kind t = false) : sendValue fl rune arg v = sendOther arg v := by
  simp [sendValue, hne, hno, hc]

/-- Every supported argument is passed, and arrives. -/
theorem sendValue_arrives (fl : Floats F) (rune : RuneText) {h : Head} {v : V F} (hs : Supported h v) :
    ∃ s c, sendValue fl rune h v = .ok s ∧ push s = .ok c ∧ Arrives fl h v c := by
  cases hs with
  | @int k n name s w hm hn hk =>
    obtain ⟨s', w', hk', hf⟩ := hk
    obtain ⟨hi, hno, hw, hns, hnu, hnp, hnup⟩ := cInt_kind hm
    rw [sendValue]
    simp only [V.kind, hn]
    split
    · rename_i e
      subst e
      rw [hi] at hk'
      cases hk'
      exact ⟨_, _, rfl, by simp only [push, hi], .int hm hn (emod_bits n w).1 (emod_bits n w).2⟩
    · simp only [hno]
      have hc : convertible k (lookupKind name.toList) = true := by
        simp [convertible, number_of_int hk', number_of_int hi]
      simp only [hc, if_true, convert, hi, Option.isSome_some]
      exact ⟨_, _, rfl, by simp only [push, hi], .int hm hn (emod_bits _ w).1 (bits_of_wrap hi n)⟩
  | @float k x hk hn =>
    rcases hn with hn | hn | ⟨name, s, w, hm, hn⟩
    · rcases hk with rfl | rfl
      · refine ⟨.value (.float .float32 x), .float x, ?_, rfl, .float hn⟩
        rw [sendValue]
        simp only [V.kind, hn]
        rw [if_pos (by decide)]
      · refine ⟨.value (.float .float32 (fl.round .float32 x)), .float _, ?_, rfl, .narrow hn⟩
        rw [sendValue]
        simp only [V.kind, hn]
        rw [if_neg (by decide), show normal (lookupKind "float".toList) = some .float32 by decide]
        rfl
    · rcases hk with rfl | rfl
      · refine ⟨.value (.float .float64 (fl.round .float64 x)), .double _, ?_, rfl, .widen hn⟩
        rw [sendValue]
        simp only [V.kind, hn]
        rw [if_neg (by decide), show normal (lookupKind "double".toList) = some .float64 by decide]
        rfl
      · refine ⟨.value (.float .float64 x), .double x, ?_, rfl, .double hn⟩
        rw [sendValue]
        simp only [V.kind, hn]
        rw [if_pos (by decide)]
    · obtain ⟨hi, hno, hw, hns, hnu, hnp, hnup⟩ := cInt_kind hm
      have hne : k ≠ lookupKind name.toList := by
        intro e
        rw [← e] at hi
        rcases hk with rfl | rfl <;> simp [Kind.integer] at hi
      have hc : convertible k (lookupKind name.toList) = true := by
        have h1 : k.number = true := by rcases hk with rfl | rfl <;> rfl
        simp [convertible, number_of_int hi, h1]
      refine ⟨.value (.int (lookupKind name.toList) (fl.toInt (lookupKind name.toList) x)), _, ?_,
        by simp only [push, hi], .floatInt hm hn hi (emod_bits _ w).1 (emod_bits _ w).2⟩
      rw [sendValue]
      simp only [V.kind, hn, hne, if_false, hno, hc, if_true, convert, hi, Option.isSome_some]
  | @intFloat k n hk hn =>
    obtain ⟨s', w', hk', hf⟩ := hk
    have hc : ∀ t, t = Kind.float32 ∨ t = Kind.float64 → convertible k t = true := by
      intro t ht
      have h1 : t.number = true := by rcases ht with rfl | rfl <;> rfl
      simp [convertible, number_of_int hk', h1]
    have hne : ∀ t, t = Kind.float32 ∨ t = Kind.float64 → k ≠ t := by
      rintro t (rfl | rfl) rfl <;> simp [Kind.integer] at hk'
    rcases hn with hn | hn
    · have e : lookupKind "float".toList = .float32 := by decide
      refine ⟨.value (.float .float32 (fl.ofInt .float32 n)), .float _, ?_, rfl, .intFloat hn⟩
      rw [sendValue]
      simp only [V.kind, hn, e, hne .float32 (.inl rfl), if_false, normal, hc .float32 (.inl rfl), if_true]
      rfl
    · have e : lookupKind "double".toList = .float64 := by decide
      refine ⟨.value (.float .float64 (fl.ofInt .float64 n)), .double _, ?_, rfl, .intDouble hn⟩
      rw [sendValue]
      simp only [V.kind, hn, e, hne .float64 (.inr rfl), if_false, normal, hc .float64 (.inr rfl), if_true]
      rfl
  | @pointer k p hk hn =>
    refine ⟨.value (.pointer .unsafePointer p), .pointer p, ?_, rfl, .pointer⟩
    rcases hn with hn | ⟨name, s, w, hm, hn⟩
    · rw [sendValue]
      simp only [V.kind, hn]
      rcases hk with hk | hk <;> subst hk
      · rw [if_neg (by decide), show normal (lookupKind "void".toList) = some .unsafePointer by decide]
        rfl
      · rw [if_pos (by decide)]
    · obtain ⟨hi, hno, hw, hns, hnu, hnp, hnup⟩ := cInt_kind hm
      rcases hk with hk | hk <;> subst hk
      · rw [sendValue_other (t := lookupKind name.toList) (by rw [hn]; exact Ne.symm hnp) (by rw [hn, hno])
          (by simp [convertible, Kind.number, Kind.integer, Kind.floating, V.kind])]
        simp [sendOther]
      · rw [sendValue_other (t := lookupKind name.toList) (by rw [hn]; exact Ne.symm hnup) (by rw [hn, hno])
          (by simp [convertible, Kind.number, Kind.integer, Kind.floating, V.kind])]
        simp [sendOther]
  | @slice p l hf hn =>
    refine ⟨.value (.pointer .unsafePointer p), .pointer p, ?_, rfl, .slice⟩
    rcases hn with hn | hn
    · rw [sendValue_other (t := .unsafePointer) (by rw [hn]; exact (by decide : Kind.slice ≠ lookupKind "void".toList)) (by rw [hn]; decide) (by rfl)]
      simp [sendOther, hf, hn]
    · rw [sendValue_other (t := .int8) (by rw [hn]; exact (by decide : Kind.slice ≠ lookupKind "char".toList)) (by rw [hn]; decide) (by rfl)]
      simp [sendOther, hf, hn]
  | @text s hf hn =>
    refine ⟨.text (nullTerminated s), .text (nullTerminated s), ?_, rfl,
      .text (cString_terminated s).1 (cString_terminated s).2⟩
    rw [sendValue_other (t := .int8) (by rw [hn]; exact (by decide : Kind.string ≠ lookupKind "char".toList)) (by rw [hn]; decide) (by rfl)]
    simp [sendOther, hf, hn]

/-- An integer that fits the C type is read as itself, whatever Go kind it came from. -/
theorem arrives_fits {h : Head} {k : Kind} {n : Int} {c : CArg F} {name : String} {s : Bool} {w : Nat}
    (fl : Floats F) (ha : Arrives fl h (.int k n) c) (hm : (name, s, w) ∈ cInt) (hn : h.name = name.toList)
    (hf : Fits s w n) : ∃ b, c = .int w b ∧ reads s w b = n := by
  cases ha with
  | intFloat hn' =>
    have h1 := (cInt_kind hm).1
    rw [← hn, hn'] at h1
    exact absurd h1 (by rw [show lookupKind "float".toList = .float32 by decide]; simp [Kind.integer])
  | intDouble hn' =>
    have h1 := (cInt_kind hm).1
    rw [← hn, hn'] at h1
    exact absurd h1 (by rw [show lookupKind "double".toList = .float64 by decide]; simp [Kind.integer])
  | @int _ _ name' s' w' b hm' hn' hb hd =>
    have h1 := (cInt_kind hm).1
    have h2 := (cInt_kind hm').1
    rw [← hn] at h1
    rw [← hn', h1] at h2
    simp only [Option.some.injEq, Prod.mk.injEq] at h2
    obtain ⟨rfl, rfl⟩ := h2
    refine ⟨b, rfl, ?_⟩
    have hw := (cInt_kind hm).2.2.1
    obtain ⟨v, rfl⟩ : ∃ v, w = v + 1 := ⟨w - 1, by omega⟩
    have hb' : (b : Int) < 2 ^ (v + 1) := by exact_mod_cast hb
    have hp : (0 : Int) < 2 ^ v := by positivity
    obtain ⟨q, hq⟩ := hd
    simp only [Fits, reads, Nat.add_sub_cancel] at hf ⊢
    rw [pow_succ] at hb' hq ⊢
    have hcast : ((2 ^ v : Nat) : Int) = 2 ^ v := by push_cast; rfl
    cases s with
    | false =>
      simp only [Bool.false_eq_true, if_false, false_and, pow_succ] at hf ⊢
      have : q = 0 := by nlinarith
      subst this
      omega
    | true =>
      simp only [if_true, true_and] at hf ⊢
      split
      · rename_i hle
        have hle' : (2 ^ v : Int) ≤ b := by rw [← hcast]; exact_mod_cast hle
        have : q = 1 := by nlinarith
        subst this
        omega
      · rename_i hle
        have hle' : (b : Int) < 2 ^ v := by rw [← hcast]; exact_mod_cast Nat.lt_of_not_le hle
        have : q = 0 := by nlinarith
        subst this
        omega

theorem mapM_ok {α β : Type} {g : α → Except Stop β} : ∀ {xs : List α} {ys : List β},
    List.Forall₂ (fun x y => g x = .ok y) xs ys → xs.mapM g = .ok ys
  | [], [], _ => rfl
  | x :: xs, y :: ys, h => by
    cases h with
    | cons h1 h2 =>
      rw [List.mapM_cons, h1]
      change (xs.mapM g >>= fun ys => pure (y :: ys)) = _
      rw [mapM_ok h2]
      rfl

/-- The arguments of a call, one after the other. -/
theorem send_all (fl : Floats F) (rune : RuneText) (all : List (V F)) :
    ∀ (hs : List Head) (args : List (V F)) (pre : Nat),
    (∀ i h, hs[i]? = some h → h.maps = pre + i + 1) → (∀ i v, args[i]? = some v → all[pre + i]? = some v) →
    List.Forall₂ (fun h v => h.free ≠ some '-' ∧ Supported h v) hs args →
    ∃ sent cargs, hs.mapM (sendArg fl rune all) = .ok sent ∧ sent.mapM push = .ok cargs ∧
      List.Forall₂ (fun (hv : Head × V F) c => Arrives fl hv.1 hv.2 c) (hs.zip args) cargs
  | [], [], _, _, _, _ => ⟨[], [], rfl, rfl, .nil⟩
  | h :: hs, v :: args, pre, hn, ha, hf => by
    cases hf with
    | cons h1 h2 =>
      obtain ⟨sent, cargs, e1, e2, e3⟩ := send_all fl rune all hs args (pre + 1)
        (fun i h hh => by have := hn (i + 1) h (by simpa using hh); omega)
        (fun i v hv => by have := ha (i + 1) v (by simpa using hv); rw [← this]; congr 1; omega) h2
      obtain ⟨s, c, g1, g2, g3⟩ := sendValue_arrives fl rune h1.2
      have hm : h.maps - 1 = pre := by have := hn 0 h rfl; omega
      have hv : all[pre]? = some v := by have := ha 0 v rfl; simpa using this
      have g0 : sendArg fl rune all h = .ok s := by
        rw [sendArg, if_neg h1.1, hm, hv]
        exact g1
      refine ⟨s :: sent, c :: cargs, ?_, ?_, .cons g3 e3⟩
      · rw [List.mapM_cons, g0]
        change (hs.mapM (sendArg fl rune all) >>= fun ys => pure (s :: ys)) = _
        rw [e1]; rfl
      · rw [List.mapM_cons, g2]
        change (sent.mapM push >>= fun ys => pure (c :: ys)) = _
        rw [e2]; rfl

/-- Tags that were read have their arguments numbered. -/
theorem heads_numbered : ∀ (ts : Tys) (n i : Nat) (h : Head), (ts.means n).heads[i]? = some h →
    h.maps = n + i
  | .nil, _, _, _, e => by simp [Tys.means, Ts.heads] at e
  | .cons t ts, n, 0, h, e => by
    simp only [Tys.means, Ts.heads, List.getElem?_cons_zero, Option.some.injEq] at e
    subst e
    cases t.means
    rfl
  | .cons t ts, n, i + 1, h, e => by
    simp only [Tys.means, Ts.heads, List.getElem?_cons_succ] at e
    have := heads_numbered ts (n + 1) i h e
    omega

theorem tags_numbered (ts : Tys) : Numbered (ts.means 1).heads :=
  fun i h e => by have := heads_numbered ts 1 i h e; omega

/-- **C98, C99, partial**: a function without a result is called exactly once, with every argument
arriving as its C type demands, for any number of supported arguments. -/
theorem call_arguments_partial (fl : Floats F) (rune : RuneText) (h : Head) (ts : Ts) (args : List (V F))
    (foreign : List (CArg F) → CRet F) (hn : Numbered ts.heads)
    (hs : List.Forall₂ (fun h v => h.free ≠ some '-' ∧ Supported h v) ts.heads args) :
    ∃ cargs, callLinked fl rune (.mk h .none ts) [] foreign args = .returned cargs [] ∧
      List.Forall₂ (fun (hv : Head × V F) c => Arrives fl hv.1 hv.2 c) (ts.heads.zip args) cargs := by
  obtain ⟨sent, cargs, e1, e2, e3⟩ := send_all fl rune args ts.heads args 0
    (fun i h hh => by have := hn i h hh; omega) (fun i v hv => by simpa using hv) hs
  refine ⟨cargs, ?_, e3⟩
  simp only [callLinked, e1, askFor, e2, if_true]

/-- What a result has to satisfy: it fits its own type. -/
def resultOf (name : String) : T := .mk { name := name.toList } .none .nil

/-- **C98, partial**: an integer result comes back: if the function returns `c` as the C type of the tag
(in the low bits of the register, the rest may be anything), the Go result is `c` whenever `c` fits it.
Go types of their own are excluded if their kind is that of the C type. -/
theorem call_result_partial (fl : Floats F) (rune : RuneText) (h : Head) (ts : Ts) (args : List (V F))
    (foreign : List (CArg F) → CRet F) (hn : Numbered ts.heads)
    (hs : List.Forall₂ (fun h v => h.free ≠ some '-' ∧ Supported h v) ts.heads args)
    (name : String) (s : Bool) (w : Nat) (hm : (name, s, w) ∈ cInt) (rh : Head)
    (hrh : rh.name = name.toList) (o : GoRet) (s' : Bool) (w' : Nat) (ho : o.kind.integer = some (s', w'))
    (hnamed : o.named = false ∨ o.kind ≠ lookupKind name.toList)
    (c : Int) (hc : Fits s w c) (hc' : Fits s' w' c)
    (hret : ∀ as, (2 ^ w : Int) ∣ (foreign as).word - c) :
    ∃ cargs, callLinked fl rune (.mk h (.some (.mk rh .none .nil)) ts) [o] foreign args =
        .returned cargs [.int o.kind c] ∧
      List.Forall₂ (fun (hv : Head × V F) c => Arrives fl hv.1 hv.2 c) (ts.heads.zip args) cargs := by
  obtain ⟨sent, cargs, e1, e2, e3⟩ := send_all fl rune args ts.heads args 0
    (fun i h hh => by have := hn i h hh; omega) (fun i v hv => by simpa using hv) hs
  obtain ⟨hi, hno, hw, hns, hnu, hnp, hnup⟩ := cInt_kind hm
  refine ⟨cargs, ?_, e3⟩
  have key : ∀ (k : Kind) (s : Bool) (w : Nat), k.integer = some (s, w) → 0 < w → ∀ (n : Int), Fits s w c →
      (2 ^ w : Int) ∣ n - c → wrap k n = c := by
    intro k s w hk hw n hf hd
    obtain ⟨v, rfl⟩ : ∃ v, w = v + 1 := ⟨w - 1, by omega⟩
    have hp : (0 : Int) < 2 ^ v := by positivity
    cases s with
    | false =>
      simp only [wrap, hk]
      simp only [Fits, Bool.false_eq_true, if_false] at hf
      change n % _ = c
      rw [Int.emod_eq_emod_iff_emod_sub_eq_zero.2 (Int.emod_eq_zero_of_dvd hd), Int.emod_eq_of_lt hf.1 hf.2]
    | true =>
      simp only [wrap, hk]
      simp only [Fits, if_true, Nat.add_sub_cancel] at hf
      have : n.bmod (2 ^ (v + 1)) = c.bmod (2 ^ (v + 1)) := by
        rw [Int.bmod_eq_bmod_iff_bmod_sub_eq_zero]
        apply Int.bmod_eq_zero_of_dvd
        push_cast
        exact hd
      rw [this]
      apply Int.bmod_eq_of_le_mul_two
      · push_cast; rw [pow_succ]; omega
      · push_cast; rw [pow_succ]; omega
  have hne : rh.name ≠ "func".toList ∧ rh.name ≠ "void".toList := by
    rw [hrh]
    constructor <;> intro e <;> rw [e] at hi
    · exact absurd (hi.symm.trans (by decide : (lookupKind "func".toList).integer = none)) (by simp)
    · exact absurd (hi.symm.trans (by decide : (lookupKind "void".toList).integer = none)) (by simp)
  have hask : askFor (.some (.mk rh .none .nil)) [o] = some (some (lookupKind name.toList)) := by
    rw [askFor, if_neg (by rintro (e | e); exacts [hne.1 e, hne.2 e])]
    simp only [T.head, hrh, hno]
  have hres : result (lookupKind name.toList) (foreign cargs) =
      some (.int (lookupKind name.toList) c) := by
    have hr : ∀ (k : Kind), k.integer = some (s, w) →
        result k (foreign cargs) = some (.int k (wrap k ((foreign cargs).word : Int))) := by
      intro k hk
      cases k <;> first | rfl | exact absurd hk (by simp [Kind.integer])
    rw [hr _ hi, key _ s w hi hw _ hc (hret cargs)]
  have hofunc : o.kind ≠ .func := by intro e; rw [e] at ho; simp [Kind.integer] at ho
  have hinv : lookupKind name.toList ≠ .invalid := by intro e; rw [e] at hi; simp [Kind.integer] at hi
  have hw' : 0 < w' := by
    cases hk : o.kind <;> rw [hk] at ho <;> simp [Kind.integer] at ho <;> omega
  have hgive : giveBack fl rune rh.name o (some (.int (lookupKind name.toList) c)) =
      some (.int o.kind c) := by
    rw [giveBack]
    simp only [hrh, hinv, if_false]
    split
    · rename_i e
      have hna : o.named = false := hnamed.resolve_right (fun hne => hne e)
      simp [assignable, hna, e]
    · simp only [hno]
      have hcv : convertible (lookupKind name.toList) o.kind = true := by
        simp [convertible, number_of_int hi, number_of_int ho]
      simp only [hcv, if_true, Option.bind_some, convert, ho, Option.isSome_some]
      rw [key _ s' w' ho hw' c hc' ⟨0, by ring⟩]
  simp only [callLinked, e1, hask, e2, hres, hofunc, if_false, T.head, hgive, if_true]

/-- A call of `abs func(int)int` with the Go type `func(int64) int64`. -/
example : ∃ cargs : List (CArg Unit),
    callLinked ⟨fun _ _ => (), fun _ _ => 0, fun _ _ => (), fun _ => true⟩ (fun _ => [])
      (Ty.means (.func none false (.cons (.simple ⟨none, false, "int".toList, none⟩) .nil)
        (.some (.simple ⟨none, false, "int".toList, none⟩))))
      [{ kind := .int64 }] (fun _ => ⟨2 ^ 32 + 7, (), ()⟩) [.int .int64 (-7)] =
      .returned cargs [.int .int64 7] ∧ cargs = [.int 32 (2 ^ 32 - 7)] := ⟨_, rfl, by decide⟩

example : Supported (F := Unit) { name := "int".toList, maps := 1 } (.int .int64 (-7)) :=
  .int (name := "int") (s := true) (w := 32) (by decide) rfl ⟨true, 64, rfl, by simp [Fits]⟩

/-- A call of `ldexp func(double,int)` with the Go type `func(float32, float64)`. -/
example : ∃ cargs : List (CArg Int),
    callLinked ⟨fun _ n => n, fun _ x => x + 1, fun _ x => x + 2, fun _ => true⟩ (fun _ => [])
      (Ty.means (.func none false (.cons (.simple ⟨none, false, "double".toList, none⟩)
        (.cons (.simple ⟨none, false, "int".toList, none⟩) .nil)) .none))
      [] (fun _ => ⟨0, 0, 0⟩) [.float .float32 5, .float .float64 (-3)] =
      .returned cargs [] ∧ cargs = [.double 7, .int 32 (2 ^ 32 - 2)] := ⟨_, rfl, by decide⟩

/-- **C98, partial**: a floating point result comes back, converted if the Go type is another one. -/
theorem call_float_result_partial (fl : Floats F) (rune : RuneText) (h : Head) (ts : Ts) (args : List (V F))
    (foreign : List (CArg F) → CRet F) (hn : Numbered ts.heads)
    (hs : List.Forall₂ (fun h v => h.free ≠ some '-' ∧ Supported h v) ts.heads args) (double : Bool) (rh : Head)
    (hrh : rh.name = (if double then "double" else "float").toList) :
    ∃ cargs, List.Forall₂ (fun (hv : Head × V F) c => Arrives fl hv.1 hv.2 c) (ts.heads.zip args) cargs ∧
      callLinked fl rune (.mk h (.some (.mk rh .none .nil)) ts) [{ kind := .float64 }] foreign args =
        .returned cargs [.float .float64 (if double then (foreign cargs).double
          else fl.round .float64 (foreign cargs).float)] ∧
      callLinked fl rune (.mk h (.some (.mk rh .none .nil)) ts) [{ kind := .float32 }] foreign args =
        .returned cargs [.float .float32 (if double then fl.round .float32 (foreign cargs).double
          else (foreign cargs).float)] := by
  obtain ⟨sent, cargs, e1, e2, e3⟩ := send_all fl rune args ts.heads args 0
    (fun i h hh => by have := hn i h hh; omega) (fun i v hv => by simpa using hv) hs
  refine ⟨cargs, e3, ?_⟩
  cases double
  all_goals
    simp only [Bool.false_eq_true, if_false, if_true] at hrh ⊢
    constructor
    all_goals
      simp only [callLinked, e1]
      simp only [askFor, T.head, hrh]
      rw [if_neg (by decide)]
  · rw [show normal (lookupKind "float".toList) = some .float32 by decide]
    simp only [e2]
    rfl
  · rw [show normal (lookupKind "float".toList) = some .float32 by decide]
    simp only [e2]
    rfl
  · rw [show normal (lookupKind "double".toList) = some .float64 by decide]
    simp only [e2]
    rfl
  · rw [show normal (lookupKind "double".toList) = some .float64 by decide]
    simp only [e2]
    rfl

/-! ### Violations -/

theorem mapM_error {α β : Type} {g : α → Except Stop β} : ∀ {xs : List α} (x : α), x ∈ xs →
    g x = .error .panic → xs.mapM g = .error .panic
  | y :: xs, x, hx, he => by
    rw [List.mapM_cons]
    cases hy : g y with
    | error e => cases e; rfl
    | ok z =>
      change (xs.mapM g >>= fun ys => pure (z :: ys)) = _
      rcases List.mem_cons.1 hx with rfl | hx
      · rw [he] at hy; cases hy
      · rw [mapM_error x hx he]; rfl

/-- **C99, violated**: no function with a parameter of a type that is not among the standard C types can
be called, pointer or not: `&FILE` of the documentation panics, whatever is passed. -/
theorem opaque_fails (fl : Floats F) (rune : RuneText) (h : Head) (func : TOpt) (ts : Ts)
    (outs : List GoRet) (args : List (V F)) (foreign : List (CArg F) → CRet F) (p : Head)
    (hp : p ∈ ts.heads) (hf : p.free ≠ some '-') (hk : lookupKind p.name = .invalid)
    (hv : ∀ v ∈ args, v.kind ≠ .invalid) :
    callLinked fl rune (.mk h func ts) outs foreign args = .panicked := by
  have hs : sendArg fl rune args p = .error .panic := by
    rw [sendArg, if_neg hf]
    cases ha : args[p.maps - 1]? with
    | none => rfl
    | some v =>
      simp only [sendValue, hk]
      rw [if_neg (hv v (List.mem_of_getElem? ha))]
      rfl
  simp only [callLinked, mapM_error p hp hs]

/-- The documented `FILE` is such a type. -/
example : lookupKind "FILE".toList = .invalid := by decide

/-- **C99** A Go text is passed for `&char` only, and a Go slice for `&void` and `&char` only: for every other standard C
type, and for those without `&`, the call panics before the foreign function is called. -/
theorem text_and_slice_only (fl : Floats F) (rune : RuneText) (h : Head) (func : TOpt) (ts : Ts)
    (outs : List GoRet) (args : List (V F)) (foreign : List (CArg F) → CRet F) (p : Head) (hp : p ∈ ts.heads)
    (hf : p.free ≠ some '-') (v : V F) (hv : args[p.maps - 1]? = some v)
    (hname : p.name = "void".toList ∨ p.name = "float".toList ∨ p.name = "double".toList ∨
      ∃ name s w, (name, s, w) ∈ cInt ∧ p.name = name.toList)
    (hbad : (∃ s, v = .string s ∧ ¬ (p.free = some '&' ∧ p.name = "char".toList)) ∨
      (∃ q l, v = .slice q l ∧ ¬ (p.free = some '&' ∧ (p.name = "void".toList ∨ p.name = "char".toList)))) :
    callLinked fl rune (.mk h func ts) outs foreign args = .panicked := by
  have hso : sendOther p v = .error .panic := by
    rcases hbad with ⟨s, rfl, hb⟩ | ⟨q, l, rfl, hb⟩
    · rw [sendOther, if_neg (fun h => hb ⟨h.2, h.1⟩)]
    · rw [sendOther, if_neg (fun h => hb ⟨h.2, h.1⟩)]
  have hk : v.kind = .string ∨ v.kind = .slice := by
    rcases hbad with ⟨s, rfl, hb⟩ | ⟨q, l, rfl, hb⟩
    · exact .inl rfl
    · exact .inr rfl
  have hsv : sendValue fl rune p v = .error .panic := by
    have key : ∀ t, normal (lookupKind p.name) = some t → lookupKind p.name ≠ .string → lookupKind p.name ≠ .slice →
        sendValue fl rune p v = .error .panic := by
      intro t h1 h2 h3
      rw [sendValue_other (t := t) ?_ h1 ?_]
      · exact hso
      · intro e
        rcases hk with hk | hk
        · exact h2 (e.symm.trans hk)
        · exact h3 (e.symm.trans hk)
      · rcases hk with hk | hk <;> rw [hk] <;> simp [convertible, Kind.number, Kind.integer, Kind.floating]
    rcases hname with hn | hn | hn | ⟨name, s, w, hm, hn⟩
    · exact key .unsafePointer (by rw [hn]; decide) (by rw [hn]; decide) (by rw [hn]; decide)
    · exact key .float32 (by rw [hn]; decide) (by rw [hn]; decide) (by rw [hn]; decide)
    · exact key .float64 (by rw [hn]; decide) (by rw [hn]; decide) (by rw [hn]; decide)
    · obtain ⟨hi, hno, hw, hns, hnu, hnp, hnup⟩ := cInt_kind hm
      refine key (lookupKind name.toList) (by rw [hn, hno]) (by rw [hn]; exact hns) ?_
      rw [hn]
      intro e
      rw [e] at hi
      simp [Kind.integer] at hi
  have hsa : sendArg fl rune args p = .error .panic := by
    rw [sendArg, if_neg hf, hv]
    exact hsv
  have := mapM_error (g := sendArg fl rune args) p hp hsa
  simp only [callLinked, this]

example : callLinked (F := Unit) ⟨fun _ _ => (), fun _ _ => 0, fun _ _ => (), fun _ => true⟩ (fun _ => []) (.mk {} .none
    (.cons (.mk { name := "int".toList, maps := 1 } .none .nil) .nil)) [] (fun _ => ⟨0, (), ()⟩) [.string [65]] =
    .panicked :=
  text_and_slice_only _ _ _ _ _ _ _ _ { name := "int".toList, maps := 1 } (by simp [Ts.heads, T.head]) (by decide)
    (.string [65]) rfl (.inr (.inr (.inr ⟨"int", true, 32, by decide, rfl⟩))) (.inl ⟨_, rfl, by decide⟩)

/-- **C98, violated**: no function with a Go `bool` for a C `bool` can be called. -/
theorem bool_argument_fails (fl : Floats F) (rune : RuneText) (h : Head) (func : TOpt)
    (outs : List GoRet) (b : Bool) (foreign : List (CArg F) → CRet F) (p : Head)
    (hf : p.free ≠ some '-') (hk : p.name = "bool".toList) (hm : p.maps = 1) :
    callLinked fl rune (.mk h func (.cons (.mk p .none .nil) .nil)) outs foreign [.bool b] = .panicked := by
  have hs : sendArg fl rune [V.bool b] p = .ok (.value (.bool b)) := by
    rw [sendArg, if_neg hf, hm]
    simp only [Nat.sub_self, List.getElem?_cons_zero, sendValue, V.kind, hk]
    rw [if_pos (by decide)]
  simp only [callLinked, Ts.heads, T.head, List.mapM_cons, List.mapM_nil, hs]
  change (match askFor func outs with | none => _ | some ask => _) = _
  cases askFor func outs <;> rfl

/-- **C98, violated**: a result of a Go type of its own (`type Status int32`) panics after the call, if its
kind is that of the C type. -/
theorem named_result_fails (fl : Floats F) (rune : RuneText) (h rh : Head) (foreign : List (CArg F) → CRet F)
    (hr : rh.name = "int".toList) :
    callLinked fl rune (.mk h (.some (.mk rh .none .nil)) .nil) [{ kind := .int32, named := true }] foreign [] =
      .calledThenPanicked [] := by
  simp only [callLinked, Ts.heads, List.mapM_nil, askFor, T.head, hr]
  rfl

/-- **C98, violated**: a function whose result the Go function leaves out panics after the call. -/
theorem dropped_result_fails (fl : Floats F) (rune : RuneText) (h rh : Head)
    (foreign : List (CArg F) → CRet F) (hr : rh.name = "int".toList) :
    callLinked fl rune (.mk h (.some (.mk rh .none .nil)) .nil) [] foreign [] = .calledThenPanicked [] := by
  simp only [callLinked, Ts.heads, List.mapM_nil, askFor, T.head, hr]
  rfl

/-- **C99, violated**: a text never comes back. A function that returns `&char` for a Go string gives the
text of the low byte of the address, read as a character. -/
theorem text_result_fails (fl : Floats F) (rune : RuneText) (h rh : Head) (foreign : List (CArg F) → CRet F)
    (hr : rh.name = "char".toList) :
    callLinked fl rune (.mk h (.some (.mk rh .none .nil)) .nil) [{ kind := .string }] foreign [] =
      .returned [] [.string (rune (wrap .int8 ((foreign []).word : Int)))] := by
  simp only [callLinked, Ts.heads, List.mapM_nil, askFor, T.head, hr]
  rfl

/-- **C99, violated**: nor does a pointer to anything but `void`: the call panics once it has been made. -/
theorem pointer_result_fails (fl : Floats F) (rune : RuneText) (h rh : Head) (name : String) (s : Bool) (w : Nat)
    (foreign : List (CArg F) → CRet F) (hm : (name, s, w) ∈ cInt) (hr : rh.name = name.toList) :
    callLinked fl rune (.mk h (.some (.mk rh .none .nil)) .nil) [{ kind := .pointer }] foreign [] =
      .calledThenPanicked [] := by
  obtain ⟨hi, hno, hw, hns, hnu, hnp, hnup⟩ := cInt_kind hm
  have hres : ∀ (k : Kind), k.integer = some (s, w) →
      result k (foreign []) = some (.int k (wrap k ((foreign []).word : Int))) := by
    intro k hk
    cases k <;> first | rfl | exact absurd hk (by simp [Kind.integer])
  have hne : rh.name ≠ "func".toList ∧ rh.name ≠ "void".toList := by
    rw [hr]
    constructor <;> intro e <;> rw [e] at hi
    · exact absurd (hi.symm.trans (by decide : (lookupKind "func".toList).integer = none)) (by simp)
    · exact absurd (hi.symm.trans (by decide : (lookupKind "void".toList).integer = none)) (by simp)
  have hask : askFor (.some (.mk rh .none .nil)) [{ kind := .pointer }] = some (some (lookupKind name.toList)) := by
    rw [askFor, if_neg (by rintro (e | e); exacts [hne.1 e, hne.2 e])]
    simp only [T.head, hr, hno]
  have hinv : lookupKind name.toList ≠ .invalid := by intro e; rw [e] at hi; simp [Kind.integer] at hi
  have hgive : giveBack fl rune rh.name { kind := .pointer }
      (some (.int (lookupKind name.toList) (wrap (lookupKind name.toList) ((foreign []).word : Int)))) = none := by
    rw [giveBack]
    simp only [hr, hinv, if_false, hno]
    rw [if_neg (Ne.symm hnp)]
    have : convertible (lookupKind name.toList) .pointer = false := by
      simp [convertible, Kind.number, Kind.integer, Kind.floating]
    simp [this]
  simp only [callLinked, Ts.heads, List.mapM_nil]
  change (match askFor (.some (.mk rh .none .nil)) [{ kind := .pointer }] with | none => _ | some ask => _) = _
  rw [hask]
  dsimp only
  change (match result (lookupKind name.toList) (foreign []) with | none => _ | some v => _) = _
  rw [hres _ hi]
  simp [T.head, hgive]

/-- A pointer to `void` does come back, as any pointer type. -/
theorem void_pointer_result (fl : Floats F) (rune : RuneText) (h rh : Head) (foreign : List (CArg F) → CRet F)
    (hr : rh.name = "void".toList) (k : Kind) (hk : k = .pointer ∨ k = .unsafePointer) (named : Bool) :
    callLinked fl rune (.mk h (.some (.mk rh .none .nil)) .nil) [{ kind := k, named := named }] foreign [] =
      .returned [] [.pointer k (foreign []).word] := by
  rcases hk with rfl | rfl <;> simp only [callLinked, Ts.heads, List.mapM_nil, askFor, T.head, hr] <;> rfl

/-! ## C100: arguments that are left out -/

/-- **C100** An argument marked with `-` and `=@n` is the length of the n-th Go argument, a slice or a
string, whatever its type in the tag. -/
theorem inferred_length (fl : Floats F) (rune : RuneText) (args : List (V F)) (p : Head) (n : Nat)
    (hf : p.free = some '-') (he : p.test.equality = some (.index (n + 1))) :
    (∀ d l, args[n]? = some (.slice d l) → sendArg fl rune args p = .ok (.value (.int .int l))) ∧
    (∀ s, args[n]? = some (.string s) → sendArg fl rune args p = .ok (.value (.int .int s.length))) := by
  constructor
  · intro d l h
    simp [sendArg, hf, inferValue, he, h]
  · intro s h
    simp [sendArg, hf, inferValue, he, h]

/-- **C100** Anything else that is left out cannot be inferred, and the call panics: constants, numbers,
other relations, and references to other kinds of arguments. -/
theorem inferred_only_lengths (fl : Floats F) (rune : RuneText) (args : List (V F)) (p : Head)
    (hf : p.free = some '-') (s : Sent F) (h : sendArg fl rune args p = .ok s) :
    ∃ n, p.test.equality = some (.index (n + 1)) ∧
      ((∃ d l, args[n]? = some (.slice d l) ∧ s = .value (.int .int l)) ∨
       (∃ t, args[n]? = some (.string t) ∧ s = .value (.int .int t.length))) := by
  rw [sendArg, if_pos hf, inferValue] at h
  split at h
  · rename_i n he
    split at h
    · simp at h
    · rename_i hn
      obtain ⟨m, rfl⟩ : ∃ m, n = m + 1 := ⟨n - 1, by omega⟩
      refine ⟨m, he, ?_⟩
      simp only [Nat.add_sub_cancel] at h
      split at h
      · rename_i d l ha
        simp only [Except.ok.injEq] at h
        exact .inl ⟨d, l, ha, h.symm⟩
      · rename_i t ha
        simp only [Except.ok.injEq] at h
        exact .inr ⟨t, ha, h.symm⟩
      · simp at h
  · simp at h

/-- **C100, violated**: the arguments after one that is left out are counted as if it were not. A tag with
an argument after a length, called with just the others, panics always: `f func(&char,-size_t=@1,int)` as
`func([]byte, int32)`. -/
theorem after_inferred_fails (fl : Floats F) (rune : RuneText) (h : Head) (func : TOpt) (outs : List GoRet)
    (a l b : Head) (foreign : List (CArg F) → CRet F) (x y : V F) (hb : b.free ≠ some '-')
    (hn : Numbered [a, l, b]) :
    callLinked fl rune (.mk h func (.cons (.mk a .none .nil) (.cons (.mk l .none .nil)
      (.cons (.mk b .none .nil) .nil)))) outs foreign [x, y] = .panicked := by
  have hm : b.maps = 3 := hn 2 b rfl
  have hs : sendArg fl rune [x, y] b = .error .panic := by
    simp [sendArg, hb, hm]
  simp only [callLinked, Ts.heads, T.head, mapM_error (g := sendArg fl rune [x, y]) (xs := [a, l, b]) b (by simp) hs]

/-- `read func(int,&char,-size_t=@2)` as `func(int32, []byte)` works. -/
example : callLinked (F := Unit) ⟨fun _ _ => (), fun _ _ => 0, fun _ _ => (), fun _ => true⟩ (fun _ => [])
    (Ty.means (.func none false
      (.cons (.simple ⟨none, false, "int".toList, none⟩)
      (.cons (.simple ⟨some '&', false, "char".toList, none⟩)
      (.cons (.simple ⟨some '-', false, "size_t".toList, some ⟨.value, false, .equal, .index 2⟩⟩) .nil)))
      .none)) [] (fun _ => ⟨0, (), ()⟩) [.int .int32 3, .slice 1000 64] =
    .returned [.int 32 3, .pointer 1000, .int 64 64] [] := by rfl

/-! ## C101: failures -/

/-- **C101, violated**: whatever the tag asserts of the result and whatever the function returns, the
error of the Go function is nil, and the symbol that should say why is never called: exactly one foreign
call is made. -/
theorem error_result_fails (fl : Floats F) (rune : RuneText) (h rh : Head) (ts : Ts) (args : List (V F))
    (foreign : List (CArg F) → CRet F) (hn : Numbered ts.heads)
    (hs : List.Forall₂ (fun h v => h.free ≠ some '-' ∧ Supported h v) ts.heads args)
    (hr : rh.name = "int".toList) :
    ∃ cargs, callLinked fl rune (.mk h (.some (.mk rh .none .nil)) ts)
      [{ kind := .interface, error := true }] foreign args = .returned cargs [.nilError] := by
  obtain ⟨sent, cargs, e1, e2, e3⟩ := send_all fl rune args ts.heads args 0
    (fun i h hh => by have := hn i h hh; omega) (fun i v hv => by simpa using hv) hs
  refine ⟨cargs, ?_⟩
  simp only [callLinked, e1, e2, askFor, T.head, hr]
  rfl

/-- **C101, violated**: a Go function with a value and an error panics after every call. -/
theorem value_and_error_fails (fl : Floats F) (rune : RuneText) (h rh : Head)
    (foreign : List (CArg F) → CRet F) (hr : rh.name = "int".toList) :
    callLinked fl rune (.mk h (.some (.mk rh .none .nil)) .nil)
      [{ kind := .int32 }, { kind := .interface, error := true }] foreign [] = .calledThenPanicked [] := by
  simp only [callLinked, Ts.heads, List.mapM_nil, askFor, T.head, hr]
  rfl

end

end Verif.Call
