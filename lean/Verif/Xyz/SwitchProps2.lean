import Verif.Xyz.SwitchProps
import Mathlib.Tactic.NormNum
/-!
# C217: what a switch may hold, and the numbers it reads

The specification is written without the scanner: ranges are spelled out for the widths Go
has, and the texts of numbers are built from their digits.
-/
namespace Verif.Xyz.Reading

open Verif.Xyz

/-! ## Specification -/

/-- The smallest and the largest number of an integer type. -/
inductive Range : Kind → Int → Int → Prop
  | i8 : Range (.int 8) (-128) 127
  | i16 : Range (.int 16) (-32768) 32767
  | i32 : Range (.int 32) (-2147483648) 2147483647
  | i64 : Range (.int 64) (-9223372036854775808) 9223372036854775807
  | u8 : Range (.uint 8) 0 255
  | u16 : Range (.uint 16) 0 65535
  | u32 : Range (.uint 32) 0 4294967295
  | u64 : Range (.uint 64) 0 18446744073709551615
  | ptr : Range .uintptr 0 18446744073709551615

/-- The values of the storage types. -/
inductive Holds : Kind → Val → Prop
  | bool (b) : Holds .bool (.b b)
  | str (s) : Holds .string (.s s)
  | int (k lo hi n) : Range k lo hi → lo ≤ n → n ≤ hi → Holds k (.i n)

/-- The storage types there are. -/
def Storage (k : Kind) : Prop := k = .bool ∨ k = .string ∨ ∃ lo hi, Range k lo hi

/-- The digit of a number below sixteen, and the same in upper case. -/
def digit (d : Nat) : Char := Char.ofNat (if d < 10 then 48 + d else 87 + d)

@[inherit_doc digit]
def upper (d : Nat) : Char := Char.ofNat (if d < 10 then 48 + d else 55 + d)

/-- `Digits b ds n`: the digits `ds`, most significant first, are those of `n` in base `b`. -/
inductive Digits (b : Nat) : List Char → Nat → Prop
  | nil : Digits b [] 0
  | low {ds n} (d : Nat) : Digits b ds n → d < b → d < 16 → Digits b (ds ++ [digit d]) (n * b + d)
  | up {ds n} (d : Nat) : Digits b ds n → d < b → d < 16 → Digits b (ds ++ [upper d]) (n * b + d)

/-- The bases and their letters. -/
inductive Base : Nat → Char → Prop
  | b : Base 2 'b'
  | B : Base 2 'B'
  | o : Base 8 'o'
  | O : Base 8 'O'
  | x : Base 16 'x'
  | X : Base 16 'X'

/-- The texts of whole numbers without a sign: decimal digits that do not begin with a zero; a
zero and then octal digits; a zero, the letter of a base and then digits of the base. -/
inductive Unsigned : List Char → Nat → Prop
  | dec (c ds n) : Digits 10 (c :: ds) n → c ≠ '0' → Unsigned (c :: ds) n
  | oct (ds n) : Digits 8 ds n → Unsigned ('0' :: ds) n
  | based (b x ds n) : Base b x → Digits b ds n → ds ≠ [] → Unsigned ('0' :: x :: ds) n

/-! ## Lemmas -/

theorem range_has {k : Kind} {lo hi : Int} (h : Range k lo hi) (n : Int) :
    k.Has (.i n) ↔ lo ≤ n ∧ n ≤ hi := by
  cases h <;> simp only [Kind.Has] <;> norm_num <;> omega

theorem has_holds {k : Kind} (hk : Storage k) (v : Val) : k.Has v ↔ Holds k v := by
  constructor
  · intro h
    rcases hk with rfl | rfl | ⟨lo, hi, hr⟩
    · cases v <;> first | exact Holds.bool _ | exact h.elim
    · cases v <;> first | exact Holds.str _ | exact h.elim
    · cases v with
      | i n => have := (range_has hr n).1 h; exact Holds.int _ _ _ _ hr this.1 this.2
      | b _ => cases hr <;> exact h.elim
      | s _ => cases hr <;> exact h.elim
  · intro h
    cases h with
    | bool => trivial
    | str => trivial
    | int _ lo hi n hr h1 h2 => exact (range_has hr n).2 ⟨h1, h2⟩

theorem ofIndex_has {k : Kind} (hk : Storage k) (i : Nat) (v : Val) (h : k.ofIndex i = some v) : k.Has v := by
  rcases hk with rfl | rfl | ⟨lo, hi, hr⟩
  · simp [Kind.ofIndex] at h; subst h; trivial
  · simp [Kind.ofIndex] at h
  · cases hr <;> simp [Kind.ofIndex] at h <;> subst h <;> simp only [Kind.Has] <;> norm_num <;> omega

theorem range_int {w : Nat} {lo hi : Int} (h : Range (.int w) lo hi) :
    w ≠ 0 ∧ lo = -(2 ^ (w - 1) : Int) ∧ hi = 2 ^ (w - 1) - 1 := by
  cases h <;> norm_num

theorem range_uint {w : Nat} {lo hi : Int} (h : Range (.uint w) lo hi) : lo = 0 ∧ hi = ((2 ^ w : Nat) : Int) - 1 := by
  cases h <;> norm_num

theorem range_ptr {lo hi : Int} (h : Range .uintptr lo hi) : lo = 0 ∧ hi = ((2 ^ 64 : Nat) : Int) - 1 := by
  cases h <;> norm_num

theorem range_cases {k : Kind} {lo hi : Int} (h : Range k lo hi) :
    (∃ w, k = .int w ∧ w ≠ 0 ∧ lo = -(2 ^ (w - 1) : Int) ∧ hi = 2 ^ (w - 1) - 1) ∨
    (∃ w, k = .uint w ∧ lo = 0 ∧ hi = ((2 ^ w : Nat) : Int) - 1) ∨
    (k = .uintptr ∧ lo = 0 ∧ hi = ((2 ^ 64 : Nat) : Int) - 1) := by
  match k, h with
  | .int w, h => exact Or.inl ⟨w, rfl, range_int h⟩
  | .uint w, h => exact Or.inr (Or.inl ⟨w, rfl, range_uint h⟩)
  | .uintptr, h => exact Or.inr (Or.inr ⟨rfl, range_ptr h⟩)
  | .bool, h => cases h
  | .string, h => cases h

theorem sscan_has {k : Kind} (hk : Storage k) (t : Str) (v : Val) (h : sscan k t = some v) : k.Has v := by
  unfold sscan at h
  simp only at h
  split at h
  · cases h
  · rcases hk with rfl | rfl | ⟨lo, hi, hr⟩
    · simp only [Option.map_eq_some_iff] at h; obtain ⟨b, _, rfl⟩ := h; trivial
    · have h := Option.some.inj h
      subst h; trivial
    · rcases range_cases hr with ⟨w, rfl, hw, _, _⟩ | ⟨w, rfl, _, _⟩ | ⟨rfl, _, _⟩
      · simp only [Option.bind_eq_some_iff] at h
        obtain ⟨n, _, h⟩ := h
        generalize (if (scanSign (List.dropWhile isBlank t)).1 = true then -(n : Int) else n) = x at h
        by_cases hx : -(2 ^ (w - 1) : Int) ≤ x ∧ x < 2 ^ (w - 1)
        · rw [if_pos hx] at h; have h := Option.some.inj h; subst h; exact ⟨hw, hx⟩
        · rw [if_neg hx] at h; cases h
      · simp only [Option.bind_eq_some_iff] at h
        obtain ⟨n, _, h⟩ := h
        by_cases hx : n < 2 ^ w
        · rw [if_pos hx] at h; have h := Option.some.inj h; subst h
          refine ⟨by omega, ?_⟩
          have : ((n : Nat) : Int) < ((2 ^ w : Nat) : Int) := by omega
          simpa using this
        · rw [if_neg hx] at h; cases h
      · simp only [Option.bind_eq_some_iff] at h
        obtain ⟨n, _, h⟩ := h
        by_cases hx : n < 2 ^ 64
        · rw [if_pos hx] at h; have h := Option.some.inj h; subst h
          refine ⟨by omega, ?_⟩
          have : ((n : Nat) : Int) < ((2 ^ 64 : Nat) : Int) := by omega
          simpa using this
        · rw [if_neg hx] at h; cases h

theorem jsonInto_num {k : Kind} {lo hi : Int} (hr : Range k lo hi) (n : Int) :
    jsonInto k (.num n) = if lo ≤ n ∧ n ≤ hi then some (.i n) else none := by
  rcases range_cases hr with ⟨w, rfl, hw, rfl, rfl⟩ | ⟨w, rfl, rfl, rfl⟩ | ⟨rfl, rfl, rfl⟩
  · unfold jsonInto
    dsimp only
    congr 1; apply propext; constructor <;> intro h <;> omega
  · unfold jsonInto
    dsimp only
    have e : ((2 ^ w : Nat) : Int) = (2 : Int) ^ w := by simp
    rw [e]
    congr 1; apply propext; constructor <;> intro h <;> omega
  · unfold jsonInto
    dsimp only
    have e : ((2 ^ 64 : Nat) : Int) = (2 : Int) ^ 64 := by simp
    rw [e]
    congr 1; apply propext; constructor <;> intro h <;> omega

theorem json_has {k : Kind} (hk : Storage k) (j : JVal) (v : Val) (h : jsonInto k j = some v) : k.Has v := by
  rcases hk with rfl | rfl | ⟨lo, hi, hr⟩
  · cases j <;> simp [jsonInto] at h; subst h; trivial
  · cases j <;> simp [jsonInto] at h; subst h; trivial
  · cases j with
    | num n =>
      rw [jsonInto_num hr] at h
      by_cases hx : lo ≤ n ∧ n ≤ hi
      · rw [if_pos hx] at h; have h := Option.some.inj h; subst h; exact (range_has hr n).2 hx
      · rw [if_neg hx] at h; cases h
    | str _ => cases hr <;> cases h
    | bool _ => cases hr <;> cases h
    | null => cases hr <;> cases h
    | other => cases hr <;> cases h

/-- What an integer type reads, given the sign and the digits. -/
theorem sscan_int {w : Nat} {lo hi : Int} (hr : Range (.int w) lo hi) (c : Char) (r : Str) (hc : isBlank c = false)
    (neg : Bool) (ds : Str) (hsg : scanSign (c :: r) = (neg, ds)) (n : Nat) (hs : scanNat ds = some n) :
    sscan (.int w) (c :: r) =
      if lo ≤ (if neg then -(n : Int) else n) ∧ (if neg then -(n : Int) else n) ≤ hi then
        some (.i (if neg then -(n : Int) else n)) else none := by
  obtain ⟨_, rfl, rfl⟩ := range_int hr
  unfold sscan
  simp only
  rw [dropBlank (by intro x hx; simp at hx; subst hx; exact hc), if_neg (by simp), hsg]
  dsimp only
  rw [hs, Option.bind_some]
  generalize (if neg = true then -(n : Int) else n) = x
  congr 1; apply propext; constructor <;> intro h <;> omega

theorem sscan_nat {k : Kind} {lo hi : Int} (hr : Range k lo hi) (c : Char) (r : Str) (hc : isBlank c = false)
    (hsg : scanSign (c :: r) = (false, c :: r)) (n : Nat) (hs : scanNat (c :: r) = some n) :
    sscan k (c :: r) = if (n : Int) ≤ hi then some (.i n) else none := by
  rcases range_cases hr with ⟨w, rfl, hw, hlo, hhi⟩ | ⟨w, rfl, rfl, rfl⟩ | ⟨rfl, rfl, rfl⟩
  · rw [sscan_int hr c r hc false _ hsg n hs]
    simp only [Bool.false_eq_true, if_false]
    have : lo ≤ 0 := by rw [hlo]; have : (0 : Int) ≤ 2 ^ (w - 1) := Int.pow_nonneg (by decide); omega
    congr 1; apply propext; constructor <;> intro h <;> omega
  · unfold sscan
    simp only
    rw [dropBlank (by intro x hx; simp at hx; subst hx; exact hc), if_neg (by simp), hs, Option.bind_some]
    congr 1; apply propext; constructor <;> intro h <;> omega
  · unfold sscan
    simp only
    rw [dropBlank (by intro x hx; simp at hx; subst hx; exact hc), if_neg (by simp), hs, Option.bind_some]
    congr 1; apply propext; constructor <;> intro h <;> omega

/-! ## Theorems -/

/-- C217: whatever text or JSON is read, whether or not it is refused, the variable holds a value
of its storage type afterwards, if it did before; and so does every declared case. -/
theorem always_of_type (k : Kind) (names : List Str) (hk : Storage k) :
    (∀ old t, Holds k old → Holds k (unmarshalText k names old t).1) ∧
    (∀ old j, Holds k old → Holds k (unmarshalJSON k names old j).1) ∧
    (∀ i, Holds k (valueOf k names i)) := by
  refine ⟨fun old t ho => ?_, fun old j ho => ?_, fun i => ?_⟩
  · unfold unmarshalText
    split
    · next i _ =>
      cases h : k.ofIndex i with
      | none => simpa using ho
      | some v => exact (has_holds hk _).1 (ofIndex_has hk i v h)
    · split
      · exact ho
      · split
        · next v h => exact (has_holds hk _).1 (sscan_has hk t v h)
        · exact ho
  · unfold unmarshalJSON
    dsimp only
    split
    · next i _ =>
      cases h : k.ofIndex i with
      | none => simpa using ho
      | some v => exact (has_holds hk _).1 (ofIndex_has hk i v h)
    · split
      · exact ho
      · split
        · next v h => exact (has_holds hk _).1 (json_has hk j v h)
        · exact ho
  · cases h : k.ofIndex i with
    | some v =>
      have hv := (has_holds hk _).1 (ofIndex_has hk i v h)
      cases k <;> simp_all [valueOf, Kind.ofIndex]
    | none =>
      rcases hk with rfl | rfl | ⟨lo, hi, hr⟩
      · simp [Kind.ofIndex] at h
      · exact Holds.str _
      · cases hr <;> simp [Kind.ofIndex] at h
        exact Holds.int _ _ _ _ .ptr (by norm_num) (by norm_num)

/-- C217: a JSON number is accepted by an integer switch exactly when it is in the range of the
storage type, in which case it is the value, declared or not; otherwise the variable is as it
was. -/
theorem json_number_exact (k : Kind) (lo hi : Int) (hr : Range k lo hi) (names : List Str) (old : Val) (n : Int) :
    (lo ≤ n ∧ n ≤ hi → unmarshalJSON k names old (.num n) = (.i n, true)) ∧
    (¬ (lo ≤ n ∧ n ≤ hi) → unmarshalJSON k names old (.num n) = (old, false)) := by
  have key := jsonInto_num hr n
  constructor
  · intro h
    unfold unmarshalJSON
    rw [key, if_pos h]
    simp
  · intro h
    unfold unmarshalJSON
    rw [key, if_neg h]
    simp

theorem digit_facts : ∀ d : Fin 16, digitVal (digit d.val) = some d.val ∧ digit d.val ≠ '_' ∧
    digitVal (upper d.val) = some d.val ∧ upper d.val ≠ '_' := by decide

theorem digits_val {b : Nat} {ds : List Char} {n : Nat} (h : Digits b ds n) : numVal b ds = n := by
  induction h with
  | nil => rfl
  | low d _ _ h16 ih =>
    unfold numVal at *
    rw [List.foldl_append, ih]
    simp [(digit_facts ⟨d, h16⟩).1]
  | up d _ _ h16 ih =>
    unfold numVal at *
    rw [List.foldl_append, ih]
    simp [(digit_facts ⟨d, h16⟩).2.2.1]

theorem digits_all {b : Nat} {ds : List Char} {n : Nat} (h : Digits b ds n) :
    ∀ c ∈ ds, inBase b c = true ∧ c ≠ '_' := by
  induction h with
  | nil => simp
  | low d _ hb h16 ih =>
    intro c hc
    rcases List.mem_append.mp hc with hc | hc
    · exact ih c hc
    · simp at hc; subst hc
      have := digit_facts ⟨d, h16⟩
      exact ⟨by simp [inBase, this.1, hb], this.2.1⟩
  | up d _ hb h16 ih =>
    intro c hc
    rcases List.mem_append.mp hc with hc | hc
    · exact ih c hc
    · simp at hc; subst hc
      have := digit_facts ⟨d, h16⟩
      exact ⟨by simp [inBase, this.2.2.1, hb], this.2.2.2⟩

theorem takeWhile_stop {p : Char → Bool} {s r : Str} (h : ∀ c ∈ s, p c = true)
    (hr : ∀ c, r.head? = some c → p c = false) : (s ++ r).takeWhile p = s := by
  induction s with
  | nil =>
    cases r with
    | nil => rfl
    | cons c r => rw [List.nil_append, List.takeWhile_cons, if_neg (by simp [hr c rfl])]
  | cons c s ih =>
    rw [List.cons_append, List.takeWhile_cons, if_pos (h c (by simp)), ih (fun x hx => h x (by simp [hx]))]

theorem scanDigits_digits {b : Nat} {ds : List Char} {n : Nat} (h : Digits b ds n) (pre need : Bool)
    (hn : ds ≠ [] ∨ (pre = true ∧ need = false)) (r : Str) (hr : ∀ c, r.head? = some c → inBase b c = false) :
    scanDigits b pre need (ds ++ r) = some n := by
  have ha := digits_all h
  unfold scanDigits
  simp only
  rw [takeWhile_stop (fun c hc => (ha c hc).1) hr, if_neg, if_pos, digits_val h]
  · exact underOK_digits _ _ (fun c hc => (ha c hc).2) (by rcases hn with h | h; exact Or.inr h; exact Or.inl h.1)
  · rcases hn with h | h
    · simp [h]
    · simp [h.2]

/-- The characters a number of up to sixteen digits is made of. -/
theorem inBase_mono {b : Nat} {c : Char} (h : inBase b c = true) (hb : b ≤ 10) (hc : c ≠ '_') :
    48 ≤ c.toNat ∧ c.toNat < 48 + b := by
  simp only [inBase, Bool.or_eq_true, beq_iff_eq, hc, false_or] at h
  unfold digitVal at h
  dsimp only at h
  split at h
  · next hd =>
    split at hd
    · next h1 => cases hd; simp at h; omega
    · split at hd
      · cases hd; simp at h; omega
      · split at hd
        · cases hd; simp at h; omega
        · cases hd
  · cases h

theorem unsigned_scan {t : List Char} {n : Nat} (h : Unsigned t n) : scanNat t = some n := by
  cases h with
  | dec c ds n hd hc =>
    have := scanDigits_digits hd false true (Or.inl (by simp)) [] (by simp)
    rw [List.append_nil] at this
    unfold scanNat
    split
    · next heq => simp at heq; exact absurd heq.1 hc
    · exact this
  | oct ds n hd =>
    have := scanDigits_digits hd true false (Or.inr ⟨rfl, rfl⟩) [] (by simp)
    rw [List.append_nil] at this
    cases ds with
    | nil => have hv := digits_val hd; cases hv; rfl
    | cons c ds =>
      obtain ⟨h1, h2⟩ := inBase_mono (digits_all hd c (by simp)).1 (by decide) (digits_all hd c (by simp)).2
      have hx : ∀ x : Char, 60 ≤ x.toNat → c ≠ x := by rintro x hx rfl; omega
      show (if c = 'b' ∨ c = 'B' then _ else if c = 'o' ∨ c = 'O' then _ else if c = 'x' ∨ c = 'X' then _ else _) = _
      rw [if_neg, if_neg, if_neg, this]
      · exact not_or.2 ⟨hx _ (by decide), hx _ (by decide)⟩
      · exact not_or.2 ⟨hx _ (by decide), hx _ (by decide)⟩
      · exact not_or.2 ⟨hx _ (by decide), hx _ (by decide)⟩
  | based b x ds n hb hd hne =>
    have := scanDigits_digits hd true true (Or.inl hne) [] (by simp)
    rw [List.append_nil] at this
    cases hb <;> exact this

theorem unsigned_head {t : List Char} {n : Nat} (h : Unsigned t n) :
    ∃ c r, t = c :: r ∧ 48 ≤ c.toNat ∧ c.toNat < 58 := by
  cases h with
  | dec c ds n hd hc =>
    have := digits_all hd c (by simp)
    have := inBase_mono this.1 (by decide) this.2
    exact ⟨c, ds, rfl, this.1, this.2⟩
  | oct ds n hd => exact ⟨'0', ds, rfl, by decide, by decide⟩
  | based b x ds n hb hd hne => exact ⟨'0', x :: ds, rfl, by decide, by decide⟩

theorem sign_none {c : Char} {r : Str} (h1 : 48 ≤ c.toNat) : scanSign (c :: r) = (false, c :: r) := by
  unfold scanSign
  split
  · next heq => simp at heq; rw [heq.1] at h1; exact absurd h1 (by decide)
  · next heq => simp at heq; rw [heq.1] at h1; exact absurd h1 (by decide)
  · rfl

theorem scan_plain {k : Kind} {lo hi : Int} (hr : Range k lo hi) {t : List Char} {n : Nat} (h : Unsigned t n) :
    sscan k t = if (n : Int) ≤ hi then some (.i n) else none := by
  obtain ⟨c, r, rfl, h1, h2⟩ := unsigned_head h
  have hs := unsigned_scan h
  have hb : isBlank c = false := by simp [isBlank]; omega
  exact sscan_nat hr c r hb (sign_none h1) n hs

theorem scan_signed {w : Nat} {lo hi : Int} (hr : Range (.int w) lo hi) {t : List Char} {n : Nat}
    (h : Unsigned t n) :
    (sscan (.int w) ('+' :: t) = if (n : Int) ≤ hi then some (.i n) else none) ∧
    (sscan (.int w) ('-' :: t) = if lo ≤ -(n : Int) then some (.i (-(n : Int))) else none) := by
  have hs := unsigned_scan h
  obtain ⟨_, hlo, hhi⟩ := range_int hr
  have hp : (0 : Int) < 2 ^ (w - 1) := Int.pow_pos (by decide)
  constructor
  · rw [sscan_int hr '+' t (by decide) false t (by rfl) n hs]
    simp only [Bool.false_eq_true, if_false]
    congr 1; apply propext; constructor <;> intro h <;> omega
  · rw [sscan_int hr '-' t (by decide) true t (by rfl) n hs]
    simp only [if_true]
    congr 1; apply propext; constructor <;> intro h <;> omega

/-- C217: the text of a number that is not one of the names is that number, if the storage type
has it, and is otherwise refused, leaving the variable as it was. A leading zero makes it octal, and
letters give other bases. -/
theorem text_number (k : Kind) (lo hi : Int) (hr : Range k lo hi) (names : List Str) (old : Val)
    (t : List Char) (n : Nat) (h : Unsigned t n) (hn : t ∉ names) :
    unmarshalText k names old t = if (n : Int) ≤ hi then (.i n, true) else (old, false) := by
  obtain ⟨c, r, rfl, _, _⟩ := unsigned_head h
  have hk : k ≠ .string := by rintro rfl; cases hr
  unfold unmarshalText
  rw [if_neg hk, byName_none _ _ hn]
  dsimp only
  rw [if_neg (by simp), scan_plain hr h]
  by_cases hh : (n : Int) ≤ hi
  · simp only [if_pos hh]
  · simp only [if_neg hh]

/-- C217: with a sign, for the signed types. -/
theorem text_signed (w : Nat) (lo hi : Int) (hr : Range (.int w) lo hi) (names : List Str) (old : Val)
    (t : List Char) (n : Nat) (h : Unsigned t n) :
    ('+' :: t ∉ names → unmarshalText (.int w) names old ('+' :: t) =
      if (n : Int) ≤ hi then (.i n, true) else (old, false)) ∧
    ('-' :: t ∉ names → unmarshalText (.int w) names old ('-' :: t) =
      if lo ≤ -(n : Int) then (.i (-(n : Int)), true) else (old, false)) := by
  obtain ⟨h1, h2⟩ := scan_signed hr h
  constructor
  · intro hn
    unfold unmarshalText
    rw [if_neg (by simp), byName_none _ _ hn]
    dsimp only
    rw [if_neg (by simp), h1]
    by_cases hh : (n : Int) ≤ hi
    · simp only [if_pos hh]
    · simp only [if_neg hh]
  · intro hn
    unfold unmarshalText
    rw [if_neg (by simp), byName_none _ _ hn]
    dsimp only
    rw [if_neg (by simp), h2]
    by_cases hh : lo ≤ -(n : Int)
    · simp only [if_pos hh]
    · simp only [if_neg hh]

/-- A digit that is not octal ends a number that begins with a zero: `018` is read as 1, without
an error. -/
theorem text_octal_cut (k : Kind) (lo hi : Int) (hr : Range k lo hi) (names : List Str) (old : Val)
    (ds : List Char) (n : Nat) (h : Digits 8 ds n) (c : Char) (rest : List Char) (hc : c = '8' ∨ c = '9')
    (hn : '0' :: (ds ++ c :: rest) ∉ names) :
    unmarshalText k names old ('0' :: (ds ++ c :: rest)) = if (n : Int) ≤ hi then (.i n, true) else (old, false) := by
  have hd := scanDigits_digits h true false (Or.inr ⟨rfl, rfl⟩) (c :: rest)
    (by rintro x hx; simp at hx; subst hx; rcases hc with rfl | rfl <;> decide)
  have hs : scanNat ('0' :: (ds ++ c :: rest)) = some n := by
    cases hds : ds ++ c :: rest with
    | nil => simp at hds
    | cons x xs =>
      rw [hds] at hd
      have hx : x.toNat < 58 := by
        cases ds with
        | nil => simp at hds; rw [← hds.1]; rcases hc with rfl | rfl <;> decide
        | cons d ds =>
          simp at hds; rw [← hds.1]
          have := inBase_mono (digits_all h d (by simp)).1 (by decide) (digits_all h d (by simp)).2
          omega
      have hx' : ∀ y : Char, 60 ≤ y.toNat → x ≠ y := by rintro y hy rfl; omega
      show (if x = 'b' ∨ x = 'B' then _ else if x = 'o' ∨ x = 'O' then _ else if x = 'x' ∨ x = 'X' then _ else _) = _
      rw [if_neg, if_neg, if_neg, hd]
      · exact not_or.2 ⟨hx' _ (by decide), hx' _ (by decide)⟩
      · exact not_or.2 ⟨hx' _ (by decide), hx' _ (by decide)⟩
      · exact not_or.2 ⟨hx' _ (by decide), hx' _ (by decide)⟩
  have hk : k ≠ .string := by rintro rfl; cases hr
  unfold unmarshalText
  rw [if_neg hk, byName_none _ _ hn]
  dsimp only
  rw [if_neg (by simp)]
  have key : sscan k ('0' :: (ds ++ c :: rest)) = if (n : Int) ≤ hi then some (.i n) else none :=
    sscan_nat hr '0' _ (by decide) (sign_none (by decide)) n hs
  rw [key]
  by_cases hh : (n : Int) ≤ hi
  · simp only [if_pos hh]
  · simp only [if_neg hh]

/-! ## Cases -/

example : unmarshalText (.int 8) [['a']] (.i 3) ['-', '1', '2', '8'] = (.i (-128), true) := by
  have hd : Digits 10 ['1', '2', '8'] 128 :=
    .low 8 (.low 2 (.low 1 .nil (by decide) (by decide)) (by decide) (by decide)) (by decide) (by decide)
  simpa using (text_signed 8 _ _ .i8 [['a']] (.i 3) _ _ (.dec _ _ _ hd (by decide))).2 (by decide)

example : unmarshalText (.uint 8) [['a']] (.i 3) ['0', '1', '7'] = (.i 15, true) := by
  have hd : Digits 8 ['1', '7'] 15 := .low 7 (.low 1 .nil (by decide) (by decide)) (by decide) (by decide)
  simpa using text_number (.uint 8) _ _ .u8 [['a']] (.i 3) _ _ (.oct _ _ hd) (by decide)

example : unmarshalText (.uint 8) [['a']] (.i 3) ['0', '1', '8'] = (.i 1, true) := by
  have hd : Digits 8 ['1'] 1 := .low 1 .nil (by decide) (by decide)
  simpa using text_octal_cut (.uint 8) _ _ .u8 [['a']] (.i 3) _ _ hd '8' [] (by decide) (by decide)

example : unmarshalJSON (.uint 8) [['a']] (.i 3) (.num 256) = (.i 3, false) ∧
    unmarshalJSON (.uint 8) [['a']] (.i 3) (.num 255) = (.i 255, true) :=
  ⟨(json_number_exact _ _ _ .u8 _ _ _).2 (by decide), (json_number_exact _ _ _ .u8 _ _ _).1 (by decide)⟩

example : unmarshalText (.int 16) [['a']] (.i 3) ['-', '0', 'x', 'f', 'F'] = (.i (-255), true) := by
  have hd : Digits 16 ['f', 'F'] 255 := .up 15 (.low 15 .nil (by decide) (by decide)) (by decide) (by decide)
  simpa using (text_signed 16 _ _ .i16 [['a']] (.i 3) _ _ (.based _ _ _ _ .x hd (by decide))).2 (by decide)

end Verif.Xyz.Reading
