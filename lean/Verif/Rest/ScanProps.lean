import Verif.Rest.ScanLemmas
import Verif.Rest.ServeFails
/-!
# C129, the whole account: which texts are read as an integer, and as which

Numerals are those of `Nat.toDigits`; nothing of how the scanner works is used in the statements.
-/
namespace Verif.Rest.Serve

open Verif.Rest Verif.Rest.Spec

/-- What the handler reads from a text for an `int` (host.go:787-816). -/
abbrev readInt (s : Str) : Option Val := readText std0.isNumber std0.quote intKind s

private theorem readInt_eq (s : Str) : readInt s = (scanInt s).map Val.int := rfl

/-- Not a digit of a base up to sixteen, and no underscore. -/
def Ends (b : Nat) (rest : Str) : Prop :=
  ∀ c, rest.head? = some c → c ≠ '_' ∧ ∀ d < b, c ≠ Nat.digitChar d ∧ c ≠ (Nat.digitChar d).toUpper

private theorem hex_facts : ∀ d : Fin 16, baseDigit (Nat.digitChar d.val) = some d.val ∧ Nat.digitChar d.val ≠ '_' ∧
    baseDigit (Nat.digitChar d.val).toUpper = some d.val ∧ (Nat.digitChar d.val).toUpper ≠ '_' := by decide +kernel

private theorem baseDigit_char {c : Char} {d : Nat} (h : baseDigit c = some d) :
    d < 16 ∧ (c = Nat.digitChar d ∨ c = (Nat.digitChar d).toUpper) := by
  have hc : c.toNat < 128 := by
    unfold baseDigit at h
    split at h
    · next hh => have : c.toNat ≤ 57 := hh.2
                 omega
    · split at h
      · next hh => have : c.toNat ≤ 102 := hh.2
                   omega
      · split at h
        · next hh => have : c.toNat ≤ 70 := hh.2
                     omega
        · cases h
  have all : ∀ n : Fin 128, ∀ d, baseDigit (Char.ofNat n.val) = some d →
      d < 16 ∧ (Char.ofNat n.val = Nat.digitChar d ∨ Char.ofNat n.val = (Nat.digitChar d).toUpper) := by
    have : ∀ n : Fin 128, (match baseDigit (Char.ofNat n.val) with
        | none => true
        | some d => decide (d < 16 ∧ (Char.ofNat n.val = Nat.digitChar d ∨ Char.ofNat n.val = (Nat.digitChar d).toUpper))) = true := by
      decide +kernel
    intro n d hd
    have := this n
    rw [hd] at this
    simpa using this
  have := all ⟨c.toNat, hc⟩ d
  rw [show Char.ofNat c.toNat = c from Char.ofNat_toNat c] at this
  exact this h

private theorem not_accepts {b : Nat} {rest : Str} (h : Ends b rest) : ∀ c, rest.head? = some c → accepts b c = false := by
  intro c hc
  obtain ⟨h1, h2⟩ := h c hc
  unfold accepts
  cases hd : baseDigit c with
  | none => simpa using h1
  | some d =>
    have := baseDigit_char hd
    have hlt : ¬ d < b := by
      intro hlt
      rcases this.2 with e | e
      · exact (h2 d hlt).1 e
      · exact (h2 d hlt).2 e
    simp [h1, hlt]

private theorem digits_all (b n : Nat) (hb : 1 < b) : ∀ c ∈ Nat.toDigits b n, ∃ d < b, c = Nat.digitChar d := by
  induction n using Nat.strongRecOn with
  | _ n ih =>
    by_cases h : n < b
    · rw [Nat.toDigits_of_lt_base h]
      intro c hc
      exact ⟨n, h, by simpa using hc⟩
    · rw [Nat.toDigits_of_base_le hb (by omega)]
      intro c hc
      rcases List.mem_append.mp hc with hc | hc
      · exact ih (n / b) (Nat.div_lt_self (by omega) hb) c hc
      · exact ⟨n % b, Nat.mod_lt _ (by omega), by simpa using hc⟩

private theorem numberOf_base (b n : Nat) (hb : 1 < b) (hb' : b ≤ 16) (f : Char → Char)
    (hf : ∀ d < 16, baseDigit (f (Nat.digitChar d)) = some d) : numberOf b ((Nat.toDigits b n).map f) = n := by
  induction n using Nat.strongRecOn with
  | _ n ih =>
    by_cases h : n < b
    · rw [Nat.toDigits_of_lt_base h]
      simp [numberOf, hf n (by omega)]
    · rw [Nat.toDigits_of_base_le hb (by omega), List.map_append]
      have := ih (n / b) (Nat.div_lt_self (by omega) hb)
      unfold numberOf at this ⊢
      rw [List.foldl_append, this]
      have hm : n % b < 16 := by have := Nat.mod_lt n (show b > 0 by omega); omega
      simp only [List.map_cons, List.map_nil, List.foldl_cons, List.foldl_nil, hf _ hm]
      rw [Nat.mul_comm]; exact Nat.div_add_mod n b

private theorem takeWhile_stop {p : Char → Bool} {l rest : Str} (h : ∀ x ∈ l, p x = true) (hr : ∀ c, rest.head? = some c → p c = false) :
    (l ++ rest).takeWhile p = l := by
  induction l with
  | nil =>
    cases rest with
    | nil => rfl
    | cons c r => rw [List.nil_append, List.takeWhile_cons, hr c rfl]; simp
  | cons x xs ih =>
    rw [List.cons_append, List.takeWhile_cons, if_pos (h x (List.mem_cons_self ..)), ih (fun y hy => h y (List.mem_cons_of_mem _ hy))]

private theorem digitsOf_base (b n : Nat) (hb : 1 < b) (hb' : b ≤ 16) (f : Char → Char)
    (hf : ∀ d < 16, baseDigit (f (Nat.digitChar d)) = some d) (hu : ∀ d < 16, f (Nat.digitChar d) ≠ '_')
    (pre need : Bool) (rest : Str) (hr : Ends b rest) : digitsOf b pre need ((Nat.toDigits b n).map f ++ rest) = some n := by
  have hall : ∀ c ∈ (Nat.toDigits b n).map f, ∃ d < b, c = f (Nat.digitChar d) := by
    intro c hc
    obtain ⟨x, hx, rfl⟩ := List.mem_map.mp hc
    obtain ⟨d, hd, rfl⟩ := digits_all b n hb x hx
    exact ⟨d, hd, rfl⟩
  have ht : ((Nat.toDigits b n).map f ++ rest).takeWhile (accepts b) = (Nat.toDigits b n).map f := by
    apply takeWhile_stop _ (not_accepts hr)
    intro c hc
    obtain ⟨d, hd, rfl⟩ := hall c hc
    simp [accepts, hf d (by omega), hd]
  have hno : '_' ∉ (Nat.toDigits b n).map f := by
    intro h
    obtain ⟨d, hd, e⟩ := hall _ h
    exact hu d (by omega) e.symm
  have hne : (Nat.toDigits b n).map f ≠ [] := by
    intro e
    exact Nat.toDigits_ne_nil (List.map_eq_nil_iff.mp e)
  unfold digitsOf
  simp only [ht]
  have hemp : ((Nat.toDigits b n).map f).isEmpty = false := by
    rw [List.isEmpty_eq_false_iff]; exact hne
  rw [hemp, underscoresOK_digits _ hno pre (Or.inr hne), numberOf_base b n hb hb' f hf]
  simp

/-- The value with a sign, if an `int` has it. -/
def signed (sign : Str) (n : Nat) : Option Val :=
  if sign = ['-'] then (if n ≤ 9223372036854775808 then some (.int (-(n : Int))) else none)
  else if n ≤ 9223372036854775807 then some (.int n) else none

private theorem scanInt_signed {sign : Str} (hs : sign ∈ [[], ['-'], ['+']]) {s : Str} {n : Nat} (h : scanNat s = some n)
    (h0 : ∃ c, s.head? = some c ∧ c ≠ '-' ∧ c ≠ '+') : readInt (sign ++ s) = signed sign n := by
  rw [readInt_eq]
  obtain ⟨c, hc, h1, h2⟩ := h0
  simp only [List.mem_cons, List.not_mem_nil, or_false] at hs
  rcases hs with rfl | rfl | rfl
  · rw [List.nil_append]
    have : scanInt s = (scanNat s).bind fun n => if n < 2 ^ 63 then some (n : Int) else none := by
      rw [scanInt.eq_def]
      split
      · exact absurd (Option.some.inj hc).symm h1
      · exact absurd (Option.some.inj hc).symm h2
      · rfl
    rw [this, h]
    unfold signed
    rw [if_neg (by decide)]
    by_cases hn : n < 2 ^ 63
    · simp only [Option.bind_some]; rw [if_pos hn, if_pos (by omega)]; rfl
    · simp only [Option.bind_some]; rw [if_neg hn, if_neg (by omega)]; rfl
  · show (scanInt ('-' :: s)).map Val.int = _
    simp only [scanInt, h, Option.bind_some]
    unfold signed
    rw [if_pos rfl]
    by_cases hn : n ≤ 2 ^ 63
    · rw [if_pos hn, if_pos (by omega)]; rfl
    · rw [if_neg hn, if_neg (by omega)]; rfl
  · show (scanInt ('+' :: s)).map Val.int = _
    simp only [scanInt, h, Option.bind_some]
    unfold signed
    rw [if_neg (show ¬ (['+'] : Str) = ['-'] by decide)]
    by_cases hn : n < 2 ^ 63
    · rw [if_pos hn, if_pos (by omega)]; rfl
    · rw [if_neg hn, if_neg (by omega)]; rfl

/-- C129: a decimal that does not begin with zero, with a sign or without, is read as its value if an `int` has it and refused
otherwise, whatever follows its digits. -/
theorem decimals_exact (sign rest : Str) (n : Nat) (hs : sign ∈ [[], ['-'], ['+']]) (hn : 0 < n) (hr : Ends 10 rest) :
    readInt (sign ++ (Nat.toDigits 10 n ++ rest)) = signed sign n := by
  obtain ⟨c, t, e⟩ := List.exists_cons_of_ne_nil (toDigits_ne n)
  have hd : ∃ d : Fin 10, c = Nat.digitChar d.val := toDigits_all n c (by rw [e]; exact List.mem_cons_self ..)
  refine scanInt_signed hs ?_ ⟨c, by rw [e]; rfl, ?_⟩
  · have hh := toDigits_head n hn
    have hd := digitsOf_base 10 n (by decide) (by decide) id (fun d hd => (hex_facts ⟨d, hd⟩).1)
      (fun d hd => (hex_facts ⟨d, hd⟩).2.1) false true rest hr
    rw [List.map_id] at hd
    rw [scanNat.eq_def]
    split
    · next s heq =>
      rw [e] at heq hh
      rw [List.cons_append] at heq
      injection heq with h1 _
      subst h1; simp at hh
    · exact hd
  · obtain ⟨d, rfl⟩ := hd
    exact ⟨(digitChar_facts d).2.2.2.2.2.1, (digitChar_facts d).2.2.2.2.2.2⟩

/-- C129: after `0x`, `0o` or `0b`, in either case, digits of that base, in either case, are read as their value. -/
theorem based_exact (sign rest : Str) (n b : Nat) (x : Char) (f : Char → Char) (hs : sign ∈ [[], ['-'], ['+']])
    (hb : (b, x) ∈ [(2, 'b'), (2, 'B'), (8, 'o'), (8, 'O'), (16, 'x'), (16, 'X')]) (hf : f = id ∨ f = Char.toUpper) (hr : Ends b rest) :
    readInt (sign ++ ('0' :: x :: ((Nat.toDigits b n).map f ++ rest))) = signed sign n := by
  have hd : ∀ b, 1 < b → b ≤ 16 → Ends b rest → digitsOf b true true ((Nat.toDigits b n).map f ++ rest) = some n := by
    intro b h1 h2 h3
    rcases hf with rfl | rfl
    · exact digitsOf_base b n h1 h2 id (fun d hd => (hex_facts ⟨d, hd⟩).1) (fun d hd => (hex_facts ⟨d, hd⟩).2.1) true true rest h3
    · exact digitsOf_base b n h1 h2 _ (fun d hd => (hex_facts ⟨d, hd⟩).2.2.1) (fun d hd => (hex_facts ⟨d, hd⟩).2.2.2) true true rest h3
  refine scanInt_signed hs ?_ ⟨'0', rfl, by decide, by decide⟩
  simp only [List.mem_cons, List.not_mem_nil, or_false, Prod.mk.injEq] at hb
  rcases hb with ⟨rfl, rfl⟩ | ⟨rfl, rfl⟩ | ⟨rfl, rfl⟩ | ⟨rfl, rfl⟩ | ⟨rfl, rfl⟩ | ⟨rfl, rfl⟩ <;>
    exact hd _ (by decide) (by decide) hr

/-- C129: a zero before a decimal makes it octal. -/
theorem octal_exact (sign rest : Str) (n : Nat) (hs : sign ∈ [[], ['-'], ['+']]) (hr : Ends 8 rest) :
    readInt (sign ++ ('0' :: (Nat.toDigits 8 n ++ rest))) = signed sign n := by
  refine scanInt_signed hs ?_ ⟨'0', rfl, by decide, by decide⟩
  have hd := digitsOf_base 8 n (by decide) (by decide) id (fun d hd => (hex_facts ⟨d, hd⟩).1)
      (fun d hd => (hex_facts ⟨d, hd⟩).2.1) true false rest hr
  rw [List.map_id] at hd
  obtain ⟨c, t, e⟩ := List.exists_cons_of_ne_nil (Nat.toDigits_ne_nil (n := n) (b := 8))
  obtain ⟨d, hd8, hc⟩ := digits_all 8 n (by decide) c (by rw [e]; exact List.mem_cons_self ..)
  rw [e] at hd ⊢
  have hx : ∀ d : Fin 8, Nat.digitChar d.val ≠ 'b' ∧ Nat.digitChar d.val ≠ 'B' ∧ Nat.digitChar d.val ≠ 'o' ∧ Nat.digitChar d.val ≠ 'O' ∧
      Nat.digitChar d.val ≠ 'x' ∧ Nat.digitChar d.val ≠ 'X' := by decide +kernel
  have hx := hx ⟨d, hd8⟩
  dsimp only at hx
  rw [← hc] at hx
  show (if c = 'b' ∨ c = 'B' then _ else if c = 'o' ∨ c = 'O' then _ else if c = 'x' ∨ c = 'X' then _ else
    digitsOf 8 true false (c :: (t ++ rest))) = _
  rw [if_neg (by simp [hx]), if_neg (by simp [hx]), if_neg (by simp [hx])]
  exact hd

private theorem scanNat_first {s : Str} {n : Nat} (h : scanNat s = some n) : ∃ c t, s = c :: t ∧ '0' ≤ c ∧ c ≤ '9' := by
  rw [scanNat.eq_def] at h
  split at h
  · exact ⟨_, _, rfl, by decide, by decide⟩
  · unfold digitsOf at h
    cases s with
    | nil => simp at h
    | cons c t =>
      refine ⟨c, t, rfl, ?_⟩
      rw [List.takeWhile_cons] at h
      by_cases ha : accepts 10 c = true
      · rw [if_pos ha] at h
        simp only [List.isEmpty_cons, Bool.and_false, Bool.false_eq_true, if_false] at h
        rw [underscoresOK] at h
        by_cases hu : c = '_'
        · simp [hu] at h
        · unfold accepts at ha
          have hb : ∃ d, baseDigit c = some d ∧ d < 10 := by
            cases hd : baseDigit c with
            | none => rw [hd] at ha; simp [hu] at ha
            | some d => rw [hd] at ha; exact ⟨d, rfl, by simpa [hu] using ha⟩
          obtain ⟨d, hd, hlt⟩ := hb
          unfold baseDigit at hd
          split at hd
          · assumption
          · split at hd
            · next h1 =>
              exfalso
              have e := Option.some.inj hd
              have : 97 ≤ c.toNat := h1.1
              omega
            · split at hd
              · next h1 =>
                exfalso
                have e := Option.some.inj hd
                have : 65 ≤ c.toNat := h1.1
                omega
              · cases hd
      · rw [if_neg ha] at h
        simp at h

/-- C129: a text that is read begins with a digit after at most one sign, and what is read is an `int`, negative only after a minus. -/
theorem read_begins (s : Str) (v : Val) (h : readInt s = some v) :
    ∃ sign c rest i, sign ∈ [[], ['-'], ['+']] ∧ s = sign ++ c :: rest ∧ '0' ≤ c ∧ c ≤ '9' ∧ v = .int i ∧
      -9223372036854775808 ≤ i ∧ i ≤ 9223372036854775807 ∧ (i < 0 → sign = ['-']) ∧ (0 < i → sign ≠ ['-']) := by
  rw [readInt_eq] at h
  obtain ⟨i, hi, rfl⟩ := Option.map_eq_some_iff.mp h
  rw [scanInt.eq_def] at hi
  split at hi
  · next s =>
    obtain ⟨n, hn, he⟩ := Option.bind_eq_some_iff.mp hi
    obtain ⟨c, t, rfl, h1, h2⟩ := scanNat_first hn
    split at he
    · have := Option.some.inj he
      exact ⟨['-'], c, t, i, by simp, rfl, h1, h2, rfl, by omega, by omega, by simp, by omega⟩
    · cases he
  · next s =>
    obtain ⟨n, hn, he⟩ := Option.bind_eq_some_iff.mp hi
    obtain ⟨c, t, rfl, h1, h2⟩ := scanNat_first hn
    split at he
    · have := Option.some.inj he
      exact ⟨['+'], c, t, i, by simp, rfl, h1, h2, rfl, by omega, by omega, by omega, by simp⟩
    · cases he
  · obtain ⟨n, hn, he⟩ := Option.bind_eq_some_iff.mp hi
    obtain ⟨c, t, rfl, h1, h2⟩ := scanNat_first hn
    split at he
    · have := Option.some.inj he
      exact ⟨[], c, t, i, by simp, rfl, h1, h2, rfl, by omega, by omega, by omega, by simp⟩
    · cases he

/-- Zero is printed as a digit. -/
theorem zero_printed : printInt 0 = ['0'] := rfl

/-- Instances: the ends of the range, what follows, underscores. -/
example : readInt "9223372036854775807".toList = some (.int 9223372036854775807) ∧ readInt "9223372036854775808".toList = none ∧
    readInt "-9223372036854775808".toList = some (.int (-9223372036854775808)) ∧ readInt "-9223372036854775809".toList = none ∧
    readInt "12abc".toList = some (.int 12) ∧ readInt "0xFFg".toList = some (.int 255) ∧ readInt "0b102".toList = some (.int 2) ∧
    readInt "1_000".toList = some (.int 1000) ∧ readInt "1_".toList = none ∧ readInt "_1".toList = none ∧ readInt "1__0".toList = none ∧
    readInt "x1".toList = none ∧ readInt "--1".toList = none ∧ readInt "0x".toList = none := by decide +kernel

example : Ends 10 "abc".toList := by
  intro c hc
  have : c = 'a' := (Option.some.inj hc).symm
  subst this
  exact ⟨by decide, by decide⟩

end Verif.Rest.Serve
