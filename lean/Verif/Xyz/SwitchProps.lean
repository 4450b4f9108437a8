import Verif.Xyz.SwitchModel
import Mathlib.Data.List.Nodup
/-!
# C26: switch types as text and JSON
-/
namespace Verif.Xyz

theorem firstFrom_some {p : Nat → Bool} : ∀ {n i j : Nat}, firstFrom p i n = some j →
    i ≤ j ∧ j < i + n ∧ p j = true ∧ ∀ l, i ≤ l → l < j → p l = false
  | 0, _, _, h => by simp [firstFrom] at h
  | n + 1, i, j, h => by
    rw [firstFrom] at h
    by_cases hp : p i = true
    · rw [if_pos hp] at h
      injection h with h; subst h
      exact ⟨Nat.le_refl _, by omega, hp, fun l h1 h2 => by omega⟩
    · rw [if_neg hp] at h
      obtain ⟨a, b, c, d⟩ := firstFrom_some h
      refine ⟨by omega, by omega, c, fun l h1 h2 => ?_⟩
      by_cases e : l = i
      · subst e; simpa using hp
      · exact d l (by omega) h2

theorem firstFrom_none {p : Nat → Bool} : ∀ {n i : Nat}, firstFrom p i n = none →
    ∀ l, i ≤ l → l < i + n → p l = false
  | 0, _, _ => fun l h1 h2 => by omega
  | n + 1, i, h => by
    rw [firstFrom] at h
    by_cases hp : p i = true
    · rw [if_pos hp] at h; cases h
    · rw [if_neg hp] at h
      intro l h1 h2
      by_cases e : l = i
      · subst e; simpa using hp
      · exact firstFrom_none h l (by omega) (by omega)

/-- A name is found at its own position when names differ. -/
theorem byName_self (names : List Str) (hd : names.Nodup) (i : Nat) (hi : i < names.length) :
    byName names names[i] = some i := by
  unfold byName
  cases h : firstFrom (fun j => names[j]? == some names[i]) 0 names.length with
  | none =>
    have := firstFrom_none h i (by omega) (by omega)
    simp [hi] at this
  | some j =>
    obtain ⟨_, h2, h3, _⟩ := firstFrom_some h
    have hj : j < names.length := by omega
    simp [hj] at h3
    rw [(List.Nodup.getElem_inj_iff hd).mp h3]

theorem byName_none (names : List Str) (t : Str) (h : t ∉ names) : byName names t = none := by
  unfold byName
  cases e : firstFrom (fun j => names[j]? == some t) 0 names.length with
  | none => rfl
  | some j =>
    obtain ⟨_, h2, h3, _⟩ := firstFrom_some e
    have hj : j < names.length := by omega
    simp [hj] at h3
    exact absurd (h3 ▸ List.getElem_mem hj) h

private theorem digit_char : ∀ d : Fin 10, (Char.ofNat (48 + d.val)).toNat = 48 + d.val ∧
    isDec (Char.ofNat (48 + d.val)) = true ∧ isBlank (Char.ofNat (48 + d.val)) = false ∧
    (d.val ≠ 0 → Char.ofNat (48 + d.val) ≠ '0') ∧ Char.ofNat (48 + d.val) ≠ '-' ∧
    Char.ofNat (48 + d.val) ≠ '+' := by decide

private theorem digit_char' (n : Nat) (h : n < 10) : (Char.ofNat (48 + n)).toNat = 48 + n ∧
    isDec (Char.ofNat (48 + n)) = true ∧ isBlank (Char.ofNat (48 + n)) = false ∧
    (n ≠ 0 → Char.ofNat (48 + n) ≠ '0') ∧ Char.ofNat (48 + n) ≠ '-' ∧
    Char.ofNat (48 + n) ≠ '+' := digit_char ⟨n, h⟩

theorem natText_dec (n : Nat) : ∀ c ∈ natText n, isDec c = true := by
  induction n using Nat.strongRecOn with
  | _ n ih =>
    intro c hc
    rw [natText] at hc
    split at hc
    · next h => simp at hc; subst hc; exact (digit_char' n h).2.1
    · rcases List.mem_append.mp hc with hc | hc
      · exact ih (n / 10) (by omega) c hc
      · simp at hc; subst hc; exact (digit_char' (n % 10) (by omega)).2.1

private theorem digit_facts : ∀ d : Fin 10, digitVal (Char.ofNat (48 + d.val)) = some d.val ∧
    Char.ofNat (48 + d.val) ≠ '_' := by decide

/-- Decimal digits are digits. -/
theorem dec_digit {c : Char} (h : isDec c = true) : digitVal c = some (c.toNat - 48) ∧ c ≠ '_' := by
  simp only [isDec, Bool.and_eq_true, decide_eq_true_eq] at h
  constructor
  · unfold digitVal
    simp only
    rw [if_pos h]
  · rintro rfl
    revert h
    decide

theorem natText_val (n : Nat) : numVal 10 (natText n) = n := by
  induction n using Nat.strongRecOn with
  | _ n ih =>
    rw [natText]
    split
    · next h => simp [numVal, (digit_facts ⟨n, h⟩).1]
    · next h =>
      have := ih (n / 10) (by omega)
      unfold numVal at *
      rw [List.foldl_append, this]
      simp only [List.foldl_cons, List.foldl_nil, (digit_facts ⟨n % 10, by omega⟩).1]
      omega

/-- Digits without underscores are in order. -/
theorem underOK_digits : ∀ (ds : Str) (p : Bool), (∀ c ∈ ds, c ≠ '_') → (p = true ∨ ds ≠ []) → underOK p ds = true
  | [], p, _, h => by rcases h with h | h <;> simp_all [underOK]
  | c :: ds, p, hd, _ => by
    rw [underOK, if_neg (hd c (by simp))]
    exact underOK_digits ds true (fun x hx => hd x (by simp [hx])) (Or.inl rfl)

theorem natText_head (n : Nat) : ∃ c rest, natText n = c :: rest ∧ isDec c = true ∧
    isBlank c = false ∧ (n ≠ 0 → c ≠ '0') ∧ c ≠ '-' ∧ c ≠ '+' := by
  induction n using Nat.strongRecOn with
  | _ n ih =>
    rw [natText]
    split
    · next h =>
      obtain ⟨_, a, b, c, d, e⟩ := digit_char' n h
      exact ⟨_, [], rfl, a, b, c, d, e⟩
    · next h =>
      obtain ⟨c, rest, h1, h2, h3, h4, h5⟩ := ih (n / 10) (by omega)
      exact ⟨c, rest ++ [_], by rw [h1]; rfl, h2, h3, fun _ => h4 (by omega), h5⟩

private theorem takeWhile_all {p : Char → Bool} {s : Str} (h : ∀ c ∈ s, p c = true) : s.takeWhile p = s := by
  induction s with
  | nil => rfl
  | cons c s ih =>
    rw [List.takeWhile_cons, if_pos (h c (by simp)), ih (fun x hx => h x (by simp [hx]))]

theorem scanNat_natText (n : Nat) : scanNat (natText n) = some n := by
  obtain ⟨c, rest, h1, h2, h3, h4, _⟩ := natText_head n
  by_cases hn : n = 0
  · subst hn; rw [natText]; rfl
  · have hne : c ≠ '0' := h4 hn
    have hv := natText_val n
    have hall := natText_dec n
    have htw : (natText n).takeWhile (inBase 10) = natText n := takeWhile_all (fun c hc => by
      have h := hall c hc
      simp only [inBase, (dec_digit h).1]
      simp only [isDec, Bool.and_eq_true, decide_eq_true_eq] at h
      simp; right; omega)
    have hu : underOK false (natText n) = true :=
      underOK_digits _ _ (fun c hc => (dec_digit (hall c hc)).2) (Or.inr (by rw [h1]; simp))
    rw [h1] at hv htw hu ⊢
    unfold scanNat
    split
    · next heq => simp at heq; exact absurd heq.1 hne
    · unfold scanDigits
      simp only
      rw [htw, if_neg (by simp), if_pos hu, hv]

theorem dropBlank {t : Str} (h : ∀ c, t.head? = some c → isBlank c = false) : t.dropWhile isBlank = t := by
  cases t with
  | nil => rfl
  | cons c t => rw [List.dropWhile_cons, if_neg (by simp [h c rfl])]

/-- `fmt.Sscan` reads back what `fmt.Sprint` wrote, for all but strings. -/
theorem sscan_sprint (k : Kind) (v : Val) (hk : k ≠ .string) (hv : k.Has v)  :
    sscan k (sprint v) = some v ∧ sprint v ≠ [] := by
  match k, v with
  | .string, _ => exact absurd rfl hk
  | .bool, .b true => decide
  | .bool, .b false => decide
  | .bool, .i _ => exact hv.elim
  | .bool, .s _ => exact hv.elim
  | .int _, .b _ => exact hv.elim
  | .int _, .s _ => exact hv.elim
  | .uint _, .b _ => exact hv.elim
  | .uint _, .s _ => exact hv.elim
  | .uintptr, .b _ => exact hv.elim
  | .uintptr, .s _ => exact hv.elim
  | .int w, .i n =>
    obtain ⟨c, rest, h1, h2, h3, h4, h5, h6⟩ := natText_head n.natAbs
    have hs := scanNat_natText n.natAbs
    unfold Kind.Has at hv
    unfold sprint sscan
    by_cases hn : n < 0
    · simp only [if_pos hn]
      rw [dropBlank (by intro c hc; simp at hc; subst hc; decide), if_neg (by simp)]
      simp only [scanSign, hs, Option.bind_some, if_true]
      have e : -((n.natAbs : Nat) : Int) = n := by omega
      rw [e, if_pos hv.2]
      simp
    · simp only [if_neg hn]
      rw [h1] at hs ⊢
      rw [dropBlank (by intro x hx; simp at hx; subst hx; exact h3), if_neg (by simp)]
      have e : scanSign (c :: rest) = (false, c :: rest) := by
        unfold scanSign
        split
        · next heq => simp at heq; exact absurd heq.1 h5
        · next heq => simp at heq; exact absurd heq.1 h6
        · rfl
      simp only [e, hs, Option.bind_some, Bool.false_eq_true, if_false]
      have e2 : ((n.natAbs : Nat) : Int) = n := by omega
      rw [e2, if_pos hv.2]
      simp
  | .uint w, .i n =>
    obtain ⟨c, rest, h1, h2, h3, h4, h5, h6⟩ := natText_head n.natAbs
    have hs := scanNat_natText n.natAbs
    obtain ⟨hv1, hv2⟩ := hv
    unfold sprint sscan
    simp only [if_neg (by omega : ¬ n < 0)]
    rw [h1] at hs ⊢
    rw [dropBlank (by intro x hx; simp at hx; subst hx; exact h3), if_neg (by simp)]
    simp only [hs, Option.bind_some]
    have e2 : ((n.natAbs : Nat) : Int) = n := by omega
    have h2w : n.natAbs < 2 ^ w := by
      have : ((n.natAbs : Nat) : Int) < ((2 ^ w : Nat) : Int) := by rw [e2]; simpa using hv2
      omega
    rw [if_pos h2w, e2]
    simp
  | .uintptr, .i n =>
    obtain ⟨c, rest, h1, h2, h3, h4, h5, h6⟩ := natText_head n.natAbs
    have hs := scanNat_natText n.natAbs
    obtain ⟨hv1, hv2⟩ := hv
    unfold sprint sscan
    simp only [if_neg (by omega : ¬ n < 0)]
    rw [h1] at hs ⊢
    rw [dropBlank (by intro x hx; simp at hx; subst hx; exact h3), if_neg (by simp)]
    simp only [hs, Option.bind_some]
    rw [if_pos (by omega)]
    have e2 : ((n.natAbs : Nat) : Int) = n := by omega
    rw [e2]
    simp

/-- What a position means is the value, when the value was recognised by its position. -/
theorem ofIndex_of_matches (k : Kind) (names : List Str) (v : Val) (i : Nat) (hk : k ≠ .string)
    (hv : k.Has v) (h : matchesIndex k names v i = true) : k.ofIndex i = some v := by
  match k, v with
  | .string, _ => exact absurd rfl hk
  | .bool, .b t => simp [matchesIndex] at h; simp [Kind.ofIndex, h]
  | .bool, .i _ => exact hv.elim
  | .bool, .s _ => exact hv.elim
  | .int _, .b _ => exact hv.elim
  | .int _, .s _ => exact hv.elim
  | .uint _, .b _ => exact hv.elim
  | .uint _, .s _ => exact hv.elim
  | .uintptr, .b _ => exact hv.elim
  | .uintptr, .s _ => exact hv.elim
  | .uintptr, .i _ => simp [matchesIndex] at h
  | .int w, .i n =>
    simp [matchesIndex] at h; subst h
    obtain ⟨hw, h1, h2⟩ := hv
    simp only [Kind.ofIndex]
    congr 2
    have e : (2 : Int) ^ w = 2 * 2 ^ (w - 1) := by
      obtain ⟨w, rfl⟩ := Nat.exists_eq_succ_of_ne_zero hw
      rw [Int.pow_succ]; simp; omega
    rw [e]
    generalize (2 : Int) ^ (w - 1) = m at *
    rw [Int.emod_eq_of_lt (by omega) (by omega)]
    omega
  | .uint w, .i n =>
    simp [matchesIndex] at h; subst h
    obtain ⟨h1, h2⟩ := hv
    simp only [Kind.ofIndex]
    rw [Int.emod_eq_of_lt h1 h2]

/-- C26, first half, in full: every value a switch can hold is restored from its text. -/
def RoundTripClaim : Prop :=
  ∀ (k : Kind) (names : List Str) (v old : Val), names.Nodup → k.Has v →
    unmarshalText k names old (marshalText k names v) = (v, true)

/-- A text that starts like a number. -/
def NumberLike (t : Str) : Prop := ∃ c, t.head? = some c ∧ (isDec c = true ∨ c = '-')

/-- C26: every value of a boolean or numeric switch, declared or not and whatever its width, is
restored from its text into any variable, if the names differ and do not look like a number
(or, for booleans with fewer than two names, like `true` or `false`). -/
theorem round_trip_partial (k : Kind) (names : List Str) (v old : Val) (hd : names.Nodup)
    (hv : k.Has v) (hk : k ≠ .string)
    (hnum : ∀ t ∈ names, ¬ NumberLike t ∧ t ≠ "true".toList ∧ t ≠ "false".toList) :
    unmarshalText k names old (marshalText k names v) = (v, true) := by
  unfold marshalText
  cases h : firstFrom (matchesIndex k names v) 0 names.length with
  | some i =>
    obtain ⟨_, hi, hm, _⟩ := firstFrom_some h
    have hi : i < names.length := by omega
    simp only [List.getElem?_eq_getElem hi, Option.getD_some, unmarshalText, if_neg hk,
      byName_self names hd i hi, ofIndex_of_matches k names v i hk hv hm]
  | none =>
    simp only
    obtain ⟨h1, h2⟩ := sscan_sprint k v hk hv
    have hn : sprint v ∉ names := by
      intro hm
      obtain ⟨ha, hb, hc⟩ := hnum _ hm
      match v with
      | .b true => exact hb rfl
      | .b false => exact hc rfl
      | .s _ => cases k <;> first | exact hv.elim | exact hk rfl
      | .i n =>
        apply ha
        simp only [sprint]
        split
        · exact ⟨'-', rfl, Or.inr rfl⟩
        · obtain ⟨c, rest, e, hd', _⟩ := natText_head n.natAbs
          exact ⟨c, by rw [e]; rfl, Or.inl hd'⟩
    simp only [unmarshalText, if_neg hk, byName_none _ _ hn, h2, if_false, h1]

/-- Every value of a string switch that has no spaces in it is restored, into a variable that
is empty. -/
theorem round_trip_string_partial (names : List Str) (t : Str) (h : ∀ c ∈ t, isBlank c = false) :
    unmarshalText .string names (.s []) (marshalText .string names (.s t)) = (.s t, true) := by
  have hm : marshalText .string names (.s t) = t := by
    unfold marshalText
    cases hf : firstFrom (matchesIndex .string names (.s t)) 0 names.length with
    | none => rfl
    | some i =>
      obtain ⟨_, hi, hm, _⟩ := firstFrom_some hf
      simp [matchesIndex] at hm
      simp [hm]
  rw [hm]
  unfold unmarshalText
  simp only [if_true]
  by_cases ht : t = []
  · simp [ht]
  · rw [if_neg ht]
    unfold sscan
    simp only
    rw [dropBlank (fun c hc => h c (List.mem_of_mem_head? hc)), if_neg ht,
      takeWhile_all (fun c hc => by simp [h c hc])]

/-- C26 fails for strings with spaces, even declared ones: a case named `in stock` comes back
as `in`. -/
theorem round_trip_fails : ¬ RoundTripClaim ∧
    unmarshalText .string ["in stock".toList] (.s []) (marshalText .string ["in stock".toList]
      (valueOf .string ["in stock".toList] 0)) = (.s "in".toList, true) := by
  have h2 : unmarshalText .string ["in stock".toList] (.s []) (marshalText .string ["in stock".toList]
      (valueOf .string ["in stock".toList] 0)) = (.s "in".toList, true) := by decide
  refine ⟨fun h => ?_, h2⟩
  have := h .string ["in stock".toList] (valueOf .string ["in stock".toList] 0) (.s []) (by simp) trivial
  rw [h2] at this
  revert this
  decide

/-- `uintptr` switches do not understand their names: no error, and the variable is as it was. -/
theorem uintptr_ignores_names (names : List Str) (hd : names.Nodup) (i : Nat) (hi : i < names.length)
    (old : Val) : unmarshalText .uintptr names old names[i] = (old, true) := by
  simp [unmarshalText, byName_self names hd i hi, Kind.ofIndex]

/-- The hypotheses of `round_trip_partial` are met by an 8-bit switch of three names and a
value that is not declared. -/
example : unmarshalText (.int 8) ["cat".toList, "dog".toList, "".toList] (.i 9)
    (marshalText (.int 8) ["cat".toList, "dog".toList, "".toList] (.i (-128))) = (.i (-128), true) := by
  apply round_trip_partial
  · decide
  · exact ⟨by decide, by decide, by decide⟩
  · decide
  · intro t ht
    have : t = "cat".toList ∨ t = "dog".toList ∨ t = [] := by simpa using ht
    rcases this with rfl | rfl | rfl <;>
      exact ⟨by rintro ⟨c, h, h2⟩; simp at h; try (subst h; revert h2; decide), by decide, by decide⟩

/-! ## Distinct cases -/

/-- C26: the cases of a declaration stand for distinct values, as long as there are no more of
them than the storage has values. -/
theorem cases_distinct_partial (k : Kind) (names : List Str) (i j : Nat)
    (hd : names.Nodup) (hi : i < names.length) (hj : j < names.length)
    (hfit : match k with
      | .bool => names.length ≤ 2
      | .int w => names.length ≤ 2 ^ w
      | .uint w => names.length ≤ 2 ^ w
      | .uintptr => names.length ≤ 1
      | .string => True)
    (h : valueOf k names i = valueOf k names j) : i = j := by
  match k with
  | .bool =>
    simp only [valueOf, Kind.ofIndex, Option.getD_some, Val.b.injEq, bne, beq_iff_eq,
      Bool.not_eq_eq_eq_not, Bool.not_not] at h
    have h : (i = 0) ↔ (j = 0) := by
      rw [← beq_iff_eq (a := i), ← beq_iff_eq (a := j), h]
    simp only at hfit
    omega
  | .uintptr => simp only at hfit; omega
  | .string =>
    simp [valueOf, hi, hj] at h
    exact (List.Nodup.getElem_inj_iff hd).mp h
  | .uint w =>
    simp only at hfit
    simp [valueOf, Kind.ofIndex] at h
    have e : ((2 : Int) ^ w) = ((2 ^ w : Nat) : Int) := by simp
    rw [e, Int.emod_eq_of_lt (by omega) (by omega), Int.emod_eq_of_lt (by omega) (by omega)] at h
    omega
  | .int w =>
    simp only at hfit
    simp only [valueOf, Kind.ofIndex, Option.getD_some, Val.i.injEq] at h
    have e : ((2 : Int) ^ w) = ((2 ^ w : Nat) : Int) := by simp
    rw [e] at h
    generalize ((2 : Int) ^ (w - 1)) = m at h
    have h' : ((i : Int) + m) % ((2 ^ w : Nat) : Int) = ((j : Int) + m) % ((2 ^ w : Nat) : Int) := by omega
    have := (Int.emod_add_cancel_right m).mp h'
    rw [Int.emod_eq_of_lt (by omega) (by omega), Int.emod_eq_of_lt (by omega) (by omega)] at this
    omega

/-- Beyond that they collide: the third case of a boolean switch is the second, and the 257th
of an 8-bit one is the first. -/
theorem cases_collide (names : List Str) :
    valueOf .bool names 1 = valueOf .bool names 2 ∧ valueOf (.uint 8) names 0 = valueOf (.uint 8) names 256 ∧
    valueOf (.int 8) names 0 = valueOf (.int 8) names 256 ∧
    valueOf .uintptr names 0 = valueOf .uintptr names 1 := by
  refine ⟨rfl, by simp [valueOf, Kind.ofIndex], by simp [valueOf, Kind.ofIndex], rfl⟩

/-! ## Unknown texts -/

/-- C26, second half, in full: a text that is neither a declared name nor the text of any value
is refused, and the variable stays as it was. -/
def UnknownClaim : Prop :=
  ∀ (k : Kind) (names : List Str) (old : Val) (t : Str), k.Has old → t ∉ names →
    (∀ v, k.Has v → t ≠ sprint v) → unmarshalText k names old t = (old, false)

/-- C26: a text that is not a name, is not empty, and does not begin like a number is refused
by numeric switches, and the variable stays as it was. -/
theorem unknown_refused_partial (k : Kind) (names : List Str) (old : Val) (t : Str)
    (hk : k ≠ .string) (hb : k ≠ .bool) (hn : t ∉ names) (c : Char) (rest : Str) (ht : t = c :: rest)
    (hc : isBlank c = false) (hd : isDec c = false) (hs : c ≠ '-' ∧ c ≠ '+') :
    unmarshalText k names old t = (old, false) := by
  subst ht
  have hsc : scanNat (c :: rest) = none := by
    unfold scanNat
    split
    · next heq => simp at heq; rw [heq.1] at hd; exact absurd hd (by decide)
    · have hno : underOK false (List.takeWhile (inBase 10) (c :: rest)) = false ∨
          List.takeWhile (inBase 10) (c :: rest) = [] := by
        by_cases hu : c = '_'
        · left
          rw [List.takeWhile_cons, if_pos (by simp [inBase, hu]), underOK, if_pos hu]
          rfl
        · right
          rw [List.takeWhile_cons, if_neg]
          simp only [inBase, Bool.or_eq_true, beq_iff_eq, hu, false_or]
          simp only [isDec, Bool.and_eq_false_iff, decide_eq_false_iff_not] at hd
          have hv : ∀ d, digitVal c = some d → 10 ≤ d := by
            intro d hdv
            unfold digitVal at hdv
            dsimp only at hdv
            rw [if_neg (by omega)] at hdv
            split at hdv
            · cases hdv; omega
            · split at hdv
              · cases hdv; omega
              · cases hdv
          cases h : digitVal c with
          | none => simp
          | some d => have := hv d h; simp; omega
      unfold scanDigits
      simp only
      rcases hno with h | h
      · rw [h]; split <;> rfl
      · rw [h]; rfl
  have hsg : scanSign (c :: rest) = (false, c :: rest) := by
    unfold scanSign
    split
    · next heq => simp at heq; exact absurd heq.1 hs.1
    · next heq => simp at heq; exact absurd heq.1 hs.2
    · rfl
  have : sscan k (c :: rest) = none := by
    unfold sscan
    simp only
    rw [dropBlank (by intro x hx; simp at hx; subst hx; exact hc), if_neg (by simp)]
    match k with
    | .string => exact absurd rfl hk
    | .bool => exact absurd rfl hb
    | .int w => simp [hsg, hsc]
    | .uint w => simp [hsc]
    | .uintptr => simp [hsc]
  simp only [unmarshalText, if_neg hk, byName_none _ _ hn, this]
  simp

/-- And it fails otherwise: `12abc` is taken for 12, and a boolean switch takes any text at all,
such as `banana`, for its false case. -/
theorem unknown_fails : ¬ UnknownClaim ∧
    unmarshalText (.int 64) ["cat".toList] (.i 0) "12abc".toList = (.i 12, true) ∧
    unmarshalText .bool ["off".toList, "on".toList] (.b true) "banana".toList = (.b false, true) := by
  have h2 : unmarshalText .bool ["off".toList, "on".toList] (.b true) "banana".toList = (.b false, true) := by decide
  refine ⟨fun h => ?_, by decide, h2⟩
  have := h .bool ["off".toList, "on".toList] (.b true) "banana".toList trivial (by decide) (by
    intro v hv
    match v with
    | .b true => decide
    | .b false => decide
    | .i _ => exact hv.elim
    | .s _ => exact hv.elim)
  rw [h2] at this
  revert this
  decide

/-- A concrete unknown text. -/
example : unmarshalText (.uint 8) ["cat".toList] (.i 3) "bird".toList = (.i 3, false) :=
  unknown_refused_partial _ _ _ _ (by decide) (by decide) (by decide) 'b' "ird".toList (by decide)
    (by decide) (by decide) (by decide)

/-! ## JSON -/

/-- C26 for JSON, in full. -/
def JsonClaim : Prop :=
  ∀ (k : Kind) (names : List Str) (v old : Val), names.Nodup → k.Has v →
    unmarshalJSON k names old (marshalJSON k names v) = (v, true)

theorem json_string (names : List Str) (v old : Val) (hv : Kind.string.Has v) :
    unmarshalJSON .string names old (marshalJSON .string names v) = (v, true) := by
  match v with
  | .b _ => exact hv.elim
  | .i _ => exact hv.elim
  | .s t =>
    have hm : marshalText .string names (.s t) = t := by
      unfold marshalText
      cases hf : firstFrom (matchesIndex .string names (.s t)) 0 names.length with
      | none => rfl
      | some i =>
        obtain ⟨_, hi, hm, _⟩ := firstFrom_some hf
        simp [matchesIndex] at hm
        simp [hm]
    simp [unmarshalJSON, marshalJSON, hm, jsonInto]

/-- Through JSON, the named values of boolean and numeric switches, and all strings, are
restored. -/
theorem json_round_trip_partial (k : Kind) (names : List Str) (v old : Val) (hd : names.Nodup)
    (hv : k.Has v) (h : k = .string ∨ ∃ i, i < names.length ∧ matchesIndex k names v i = true) :
    unmarshalJSON k names old (marshalJSON k names v) = (v, true) := by
  rcases h with rfl | ⟨i, hi, hm⟩
  · exact json_string names v old hv
  · by_cases hk : k = .string
    · subst hk
      exact json_string names v old hv
    · unfold marshalJSON marshalText
      cases hf : firstFrom (matchesIndex k names v) 0 names.length with
      | none => have := firstFrom_none hf i (by omega) (by omega); rw [hm] at this; cases this
      | some j =>
        obtain ⟨_, hj, hmj, _⟩ := firstFrom_some hf
        have hj : j < names.length := by omega
        simp only [List.getElem?_eq_getElem hj, Option.getD_some, unmarshalJSON, if_neg hk,
          byName_self names hd j hj, ofIndex_of_matches k names v j hk hv hmj]

/-- Numbers without a name are written as strings, which are then refused. -/
theorem json_fails : ¬ JsonClaim ∧
    unmarshalJSON (.int 64) ["cat".toList] (.i 0) (marshalJSON (.int 64) ["cat".toList] (.i 5)) = (.i 0, false) := by
  have h2 : unmarshalJSON (.int 64) ["cat".toList] (.i 0) (marshalJSON (.int 64) ["cat".toList] (.i 5)) =
      (.i 0, false) := by decide +kernel
  refine ⟨fun h => ?_, h2⟩
  have := h (.int 64) ["cat".toList] (.i 5) (.i 0) (by simp) ⟨by decide, by decide, by decide⟩
  rw [h2] at this
  revert this
  decide

/-- The second case of a boolean switch. -/
example : unmarshalJSON .bool ["off".toList, "on".toList] (.b false)
    (marshalJSON .bool ["off".toList, "on".toList] (.b true)) = (.b true, true) :=
  json_round_trip_partial _ _ _ _ (by decide) trivial (Or.inr ⟨1, by decide, rfl⟩)

end Verif.Xyz
