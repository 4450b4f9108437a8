import Verif.Jrpc.Lemmas4

/-! Properties C09-C12, C48-C51 of the JSON-RPC codec: see Spec and Spec2 for the vocabulary. -/
namespace Verif.Jrpc

/-! ### C09: strings are escaped losslessly -/

/-- C09: whatever bytes a string holds, what is written is a quoted RFC 8259 string denoting exactly the string's code
points, ill-formed bytes replaced by U+FFFD; and every byte string has code points in that sense, exactly one list of them. -/
theorem string_escaped (s : List UInt8) :
    (∃ cs, Decoded s cs) ∧ (∀ cs cs', Decoded s cs → Decoded s cs' → cs = cs') ∧
    ∀ cs, Decoded s cs → ∃ t, encString s = [34] ++ t ++ [34] ∧ Chars false t cs := by
  refine ⟨Decoded.exists s, fun cs cs' h h' => h.unique h', ?_⟩
  intro cs h
  obtain ⟨t, h1, h2⟩ := strLoop_chars h
  exact ⟨t, by rw [encString, h1]; simp, h2⟩

/-- A quote, a newline, a two-byte character, a lone continuation byte and a line separator. -/
example : encString [34, 10, 0xC3, 0xA9, 0x80, 0xE2, 0x80, 0xA8] =
    [34, 92, 34, 92, 110, 0xC3, 0xA9, 92, 117, 102, 102, 102, 100, 92, 117, 50, 48, 50, 56, 34] := by decide +kernel

/-! ### C10: byte slices are written as base64 -/

/-- C10 for byte slices that are not empty: the text between the quotes is their RFC 4648 base64, which stands for no other
bytes. Missing: the empty slice, for which it is false (`bytes_base64_fails`). -/
theorem bytes_base64_partial (b : List UInt8) (hb : b ≠ []) :
    ∃ t, encode (.bytes (some b)) = some ([34] ++ t ++ [34]) ∧ Base64 t b := by
  refine ⟨quanta b, ?_, quanta_ok b⟩
  have hl : b.length ≠ 0 := by simpa using hb
  rw [encode, encBase64, if_neg hl]

/-- Base64 texts stand for one byte string only. -/
theorem base64_unambiguous {t b b' : List UInt8} (h : Base64 t b) (h' : Base64 t b') : b = b' := by
  have np : ∀ {a n}, B64 a n → a ≠ 61 := by
    intro a n h e; subst e; unfold B64 at h; rw [show (61 : UInt8).toNat = 61 from rfl] at h; omega
  induction h generalizing b' with
  | nil => cases h'; rfl
  | full a b c d x y z n1 n2 n3 n4 t u h1 h2 h3 h4 he _ ih =>
    cases h' with
    | full _ _ _ _ x' y' z' m1 m2 m3 m4 _ u' g1 g2 g3 g4 ge gt =>
      have e1 := std_b64_unique h1 g1; have e2 := std_b64_unique h2 g2
      have e3 := std_b64_unique h3 g3; have e4 := std_b64_unique h4 g4
      subst e1 e2 e3 e4
      have := x.toNat_lt; have := y.toNat_lt; have := z.toNat_lt
      have := x'.toNat_lt; have := y'.toNat_lt; have := z'.toNat_lt
      have ex : x = x' := UInt8.toNat_inj.mp (by omega)
      have ey : y = y' := UInt8.toNat_inj.mp (by omega)
      have ez : z = z' := UInt8.toNat_inj.mp (by omega)
      rw [ex, ey, ez, ih gt]
    | two _ _ _ _ _ _ _ _ _ _ _ => exact absurd rfl (np h4)
    | one => exact absurd rfl (np h4)
  | two a b c x y n1 n2 n3 h1 h2 h3 he =>
    cases h' with
    | full _ _ _ _ _ _ _ _ _ _ _ _ _ _ _ _ g4 => exact absurd rfl (np g4)
    | two _ _ _ x' y' m1 m2 m3 g1 g2 g3 ge =>
      have e1 := std_b64_unique h1 g1; have e2 := std_b64_unique h2 g2; have e3 := std_b64_unique h3 g3
      subst e1 e2 e3
      have := x.toNat_lt; have := y.toNat_lt; have := x'.toNat_lt; have := y'.toNat_lt
      have ex : x = x' := UInt8.toNat_inj.mp (by omega)
      have ey : y = y' := UInt8.toNat_inj.mp (by omega)
      rw [ex, ey]
    | one => exact absurd rfl (np h3)
  | one a b x n1 n2 h1 h2 he =>
    cases h' with
    | full _ _ _ _ _ _ _ _ _ _ _ _ _ _ _ _ g4 => exact absurd rfl (np g4)
    | two _ _ _ _ _ _ _ _ _ _ g3 => exact absurd rfl (np g3)
    | one _ _ x' m1 m2 g1 g2 ge =>
      have e1 := std_b64_unique h1 g1; have e2 := std_b64_unique h2 g2
      subst e1 e2
      have ex : x = x' := UInt8.toNat_inj.mp (by omega)
      rw [ex]

example : encode (.bytes (some [77, 97, 110, 77])) = some [34, 84, 87, 70, 117, 84, 81, 61, 61, 34] := by decide +kernel

/-- C10 is false of the empty slice: what is written between the quotes is `null`, which is the base64 of three other bytes. -/
theorem bytes_base64_fails : ∃ t, encode (.bytes (some [])) = some ([34] ++ t ++ [34]) ∧ ¬ Base64 t [] ∧ Base64 t [0x9e, 0xe9, 0x65] := by
  refine ⟨[110, 117, 108, 108], by decide +kernel, ?_, ?_⟩
  · intro h; cases h
  · exact .full 110 117 108 108 0x9e 0xe9 0x65 39 46 37 37 [] [] (by unfold B64; decide) (by unfold B64; decide) (by unfold B64; decide)
      (by unfold B64; decide) (by decide) .nil

/-! ### C11: integers -/

/-- C11, first half: an integer written by the encoder and followed by a terminator is read back exactly, for every integer
type (`w` bits) that holds it. -/
theorem int_round_trip (w : Nat) (i : Int) (rest : List UInt8) (h0 : 0 < w) (h1 : w ≤ 64) (h2 : -(2 ^ (w - 1) : Nat) ≤ i)
    (h3 : i < (2 ^ (w - 1) : Nat)) (hr : NumberEnd rest) :
    ∃ out, encode (.int i) = some out ∧ decode (.int w) (out ++ rest) = .ok (.int i, rest) := by
  obtain ⟨c, out, _, e, h⟩ := fits_trip (.int w i h0 h1 h2 h3)
  exact ⟨_, e, h rest hr⟩

/-- The same for unsigned integers. -/
theorem uint_round_trip (w n : Nat) (rest : List UInt8) (h1 : w ≤ 64) (h2 : n < 2 ^ w) (hr : NumberEnd rest) :
    ∃ out, encode (.uint n) = some out ∧ decode (.uint w) (out ++ rest) = .ok (.uint n, rest) := by
  obtain ⟨c, out, _, e, h⟩ := fits_trip (.uint w n h1 h2)
  exact ⟨_, e, h rest hr⟩

example : encode (.int (-9223372036854775808)) = some [45, 57, 50, 50, 51, 51, 55, 50, 48, 51, 54, 56, 53, 52, 55, 55, 53, 56, 48, 56] ∧
    NumberEnd [44, 49] := ⟨by decide +kernel, .inr ⟨44, [49], rfl, by decide⟩⟩

/-- C11, second half: the decimal text of a number is read as that number when the type holds it, whatever the number of
leading zeros; an unsigned integer is only read from digits, a signed one only from digits and minus signs (`int_accepts`).
Refusal of what is not an in-range integer is C104, which is false (`int_reject_fails`). -/
theorem int_text (w : Nat) (h0 : 0 < w) (h1 : w ≤ 64) (ds rest : List UInt8) (hd : Digits ds) (hr : NumberEnd rest) :
    (digitsVal ds < 2 ^ (w - 1) → decInt w (ds ++ rest) = .ok (digitsVal ds, rest)) ∧
    (digitsVal ds ≤ 2 ^ (w - 1) → decInt w (45 :: ds ++ rest) = .ok (-(digitsVal ds : Int), rest)) ∧
    (digitsVal ds < 2 ^ w → decUint w (ds ++ rest) = .ok (digitsVal ds, rest)) := by
  refine ⟨?_, ?_, ?_⟩
  · intro h
    rw [decInt_digits w hd.2 hr, setInt, BitVec.setWidth_ofNat_of_le h1, ← BitVec.ofInt_natCast,
      BitVec.toInt_ofInt_eq_self h0]
    · have : (0 : Int) ≤ 2 ^ (w - 1) := Int.le_of_lt (Int.pow_pos (by decide)); omega
    · exact_mod_cast h
  · intro h
    rw [decInt_neg w hd.2 hr, setInt, BitVec.setWidth_neg_of_le h1, BitVec.setWidth_ofNat_of_le h1, ← BitVec.ofInt_natCast, ← BitVec.ofInt_neg,
      BitVec.toInt_ofInt_eq_self h0]
    · have : ((digitsVal ds : Nat) : Int) ≤ 2 ^ (w - 1) := by exact_mod_cast h
      omega
    · have : (0 : Int) < 2 ^ (w - 1) := Int.pow_pos (by decide); omega
  · intro h
    rw [decUint_digits w hd.2 hr, setUint, BitVec.setWidth_ofNat_of_le h1, BitVec.toNat_ofNat, Nat.mod_eq_of_lt h]

/-- What is accepted: see `int_text`. -/
theorem int_accepts (w : Nat) (s : List UInt8) :
    (∀ n rest, decUint w s = .ok (n, rest) → ∃ ds, s = ds ++ rest ∧ (∀ d ∈ ds, 48 ≤ d.toNat ∧ d.toNat ≤ 57) ∧ NumberEnd rest) ∧
    (∀ i rest, decInt w s = .ok (i, rest) → ∃ ds, s = ds ++ rest ∧ (∀ d ∈ ds, d = 45 ∨ (48 ≤ d.toNat ∧ d.toNat ≤ 57)) ∧ NumberEnd rest) := by
  constructor
  · intro n rest h
    unfold decUint at h
    cases e : uintLoop 0 s with
    | error x => rw [e] at h; cases h
    | ok r => rw [e] at h; obtain ⟨r, t⟩ := r; cases h; exact uintLoop_accepts _ _ _ _ e
  · intro i rest h
    unfold decInt at h
    cases e : intLoop 0 false s with
    | error x => rw [e] at h; cases h
    | ok r => rw [e] at h; obtain ⟨r, t⟩ := r; cases h; exact intLoop_accepts _ _ _ _ _ e

example : Digits [48, 52, 50] ∧ digitsVal [48, 52, 50] = 42 ∧ decInt 8 [48, 52, 50, 44] = .ok (42, [44]) := by
  refine ⟨⟨by decide, by decide⟩, by decide, by rfl⟩

/-- C11 is false of out-of-range and malformed numbers: 2^64+1 is read as 1, 300 into an int8 as 44, `1-2` as -12 and a
minus sign alone as zero. -/
theorem int_reject_fails :
    decode (.uint 64) [49, 56, 52, 52, 54, 55, 52, 52, 48, 55, 51, 55, 48, 57, 53, 53, 49, 54, 49, 55] = .ok (.uint 1, []) ∧
    decode (.int 8) [51, 48, 48] = .ok (.int 44, []) ∧ decode (.int 64) [49, 45, 50] = .ok (.int (-12), []) ∧
    decode (.int 64) [45] = .ok (.int 0, []) := ⟨rfl, rfl, rfl, rfl⟩

/-! ### C12: chunking -/

/-- C12 for readers that fill the buffer they are given whenever they can: any sequence of peeks and scans returns the bytes
of the stream. Missing: readers that return less (a network connection), for which it is false (`chunking_fails`). -/
theorem chunking_partial (stream : List UInt8) (plan : List Nat) (hp : ∀ k ∈ plan, 256 ≤ k) (ops : List Bool) :
    (newDec ⟨stream, plan⟩).bytes ops = match streamBytes stream ops with | some bs => .ok bs | none => .error .eof := by
  refine bufInv_bytes ops ⟨?_, ?_, ?_, ?_, ?_, ?_, ?_, ?_, ?_⟩
  · exact Int.le_refl _
  · exact Int.le_refl _
  · show (0 : Int) ≤ 256; decide
  · exact List.length_replicate
  · show (0 : Int) < 256; decide
  · rfl
  · intro _; left; rfl
  · intro _ h; exact absurd rfl h
  · exact hp

example : (newDec ⟨List.replicate 300 7 ++ [9], [256]⟩).bytes (List.replicate 300 true ++ [false, true]) = .ok (List.replicate 300 7 ++ [9, 9]) := by
  rw [chunking_partial _ _ (by simp)]
  decide +kernel

/-- C12 is false in general: `ab` arriving one byte at a time is read as `aa`. -/
theorem chunking_fails : ∃ plan, (∀ k ∈ plan, 1 ≤ k) ∧ streamBytes [97, 98] [true, true] = some [97, 98] ∧
    (newDec ⟨[97, 98], plan⟩).bytes [true, true] = .ok [97, 97] :=
  ⟨[1, 1], by decide, by decide, by decide +kernel⟩

/-- A number whose terminator is the last byte of the buffer makes the next read panic, even when reads are full: putting the
byte back after the buffer was recycled leaves the head at -1. -/
theorem unscan_fails : ∃ stream : List UInt8, ∃ d, 257 ≤ stream.length ∧
    (List.range 256).foldlM (fun d _ => (Dec.scan d).map Prod.snd) (newDec ⟨stream, []⟩) = .ok d ∧
    d.unscan.peek.map Prod.fst = .error .panic := by
  refine ⟨List.replicate 255 49 ++ [44, 50], ⟨List.replicate 255 49 ++ [44], 0, 0, ⟨[50], []⟩⟩, by decide +kernel, by decide +kernel, by decide +kernel⟩

/-! ### C48: the decoder understands JSON strings -/

/-- C48, for strings without surrogate pairs: every RFC 8259 string is decoded to the UTF-8 of the code points it denotes.
Missing: surrogate pairs, for which it is false (`string_decoded_fails`). -/
theorem string_decoded_partial (t rest : List UInt8) (cs : List Nat) (h : Chars false t cs) :
    decString ([34] ++ t ++ [34] ++ rest) = .ok (cs.flatMap utf8, rest) := by
  have e : [34] ++ t ++ [34] ++ rest = 34 :: (t ++ 34 :: rest) := by simp
  rw [e, decString, if_pos rfl]
  have := decChars_ok h [] rest
  simpa using this

/-- C48 for what the encoder writes, without restriction: the string read back is the original with its ill-formed bytes
replaced by U+FFFD, so a well-formed string is read back unchanged. -/
theorem string_round_trip (s rest : List UInt8) :
    (∀ cs, Decoded s cs → decString (encString s ++ rest) = .ok (cs.flatMap utf8, rest)) ∧
    (Utf8 s → decString (encString s ++ rest) = .ok (s, rest)) :=
  ⟨fun _ h => decString_enc h rest, fun h => h.trip rest⟩

example : ∃ cs, Chars false [92, 117, 48, 48, 101, 57, 92, 110] cs ∧
    decString ([34] ++ [92, 117, 48, 48, 101, 57, 92, 110] ++ [34] ++ [44]) = .ok ([0xC3, 0xA9, 10], [44]) := by
  refine ⟨[0xE9, 10], ?_, by decide +kernel⟩
  exact .hex 48 48 101 57 0 0 14 9 [92, 110] [10] (by unfold HexDigit; decide) (by unfold HexDigit; decide) (by unfold HexDigit; decide)
    (by unfold HexDigit; decide) (by unfold Scalar; decide) (.short 110 10 [] [] (by decide) .nil)

theorem hexVal_some {b : UInt8} {n : Nat} (h : hexVal b = some n) : HexDigit b n := by
  unfold hexVal at h
  dsimp only at h
  unfold HexDigit
  repeat' split at h
  all_goals first | (cases h; done) | (injection h; omega)

theorem hex4_some {a b c d : UInt8} {r : Nat} (h : hex4 a b c d = some r) : ∃ n1 n2 n3 n4, HexDigit a n1 ∧ HexDigit b n2 ∧
    HexDigit c n3 ∧ HexDigit d n4 ∧ r = ((n1 * 16 + n2) * 16 + n3) * 16 + n4 := by
  cases ha : hexVal a with
  | none => simp [hex4, ha] at h
  | some n1 =>
  cases hb : hexVal b with
  | none => simp [hex4, ha, hb] at h
  | some n2 =>
  cases hc : hexVal c with
  | none => simp [hex4, ha, hb, hc] at h
  | some n3 =>
  cases hd : hexVal d with
  | none => simp [hex4, ha, hb, hc, hd] at h
  | some n4 =>
    have := hex4_ok (hexVal_some ha) (hexVal_some hb) (hexVal_some hc) (hexVal_some hd)
    rw [this] at h
    exact ⟨n1, n2, n3, n4, hexVal_some ha, hexVal_some hb, hexVal_some hc, hexVal_some hd, (Option.some.inj h).symm⟩

theorem runeBytes_surrogate {r : Nat} (h1 : 0xD800 ≤ r) (h2 : r < 0xE000) : runeBytes r = [0xEF, 0xBF, 0xBD] := by
  unfold runeBytes
  rw [if_neg (by omega), if_neg (by omega), if_pos (by omega)]

theorem simpleEscape_iff (e x : UInt8) : simpleEscape e = some x ↔ (e, x) ∈ shortEscapes := by
  unfold simpleEscape shortEscapes
  simp only [List.mem_cons, Prod.mk.injEq, List.not_mem_nil, or_false]
  by_cases h1 : e = 0x22
  · subst h1; simp [eq_comm]
  by_cases h2 : e = 0x5C
  · subst h2; simp [eq_comm]
  by_cases h3 : e = 0x2F
  · subst h3; simp [eq_comm]
  by_cases h4 : e = 0x62
  · subst h4; simp [eq_comm]
  by_cases h5 : e = 0x66
  · subst h5; simp [eq_comm]
  by_cases h6 : e = 0x6E
  · subst h6; simp [eq_comm]
  by_cases h7 : e = 0x72
  · subst h7; simp [eq_comm]
  by_cases h8 : e = 0x74
  · subst h8; simp [eq_comm]
  simp [h1, h2, h3, h4, h5, h6, h7, h8]

theorem decChars_lenient {t out : List UInt8} (h : Lenient t out) : ∀ buf rest, decChars buf (t ++ 34 :: rest) = .ok (buf ++ out, rest) := by
  induction h with
  | nil => intro buf rest; rw [List.nil_append, decChars_quote]; simp
  | byte b t out h1 h2 _ ih => intro buf rest; rw [List.cons_append, decChars_char h1 h2, ih]; simp
  | short e x t out h1 _ ih =>
    intro buf rest
    rw [List.cons_append, List.cons_append, decChars_simple ((simpleEscape_iff e x).mpr h1), ih]; simp
  | scalar h1 h2 h3 h4 n1 n2 n3 n4 t out a b c d hs _ ih =>
    intro buf rest
    simp only [List.cons_append]
    rw [decChars_hex (hex4_ok a b c d), ih, runeBytes_ok hs (by have := a.lt; have := b.lt; have := c.lt; have := d.lt; omega)]
    simp
  | surrogate h1 h2 h3 h4 n1 n2 n3 n4 t out a b c d hs hs' _ ih =>
    intro buf rest
    simp only [List.cons_append]
    rw [decChars_hex (hex4_ok a b c d), ih, runeBytes_surrogate hs hs']
    simp

theorem lenient_of_decChars : ∀ (k : Nat) (s buf out rest : List UInt8), s.length ≤ k → decChars buf s = .ok (out, rest) →
    ∃ t o, s = t ++ 34 :: rest ∧ out = buf ++ o ∧ Lenient t o := by
  intro k
  induction k with
  | zero =>
    intro s buf out rest hk h
    have : s = [] := List.length_eq_zero_iff.mp (by omega)
    subst this
    rw [decChars.eq_def] at h; cases h
  | succ k ih =>
    intro s buf out rest hk h
    cases s with
    | nil => rw [decChars.eq_def] at h; cases h
    | cons c t =>
    simp only [List.length_cons] at hk
    by_cases h1 : c = 34
    · subst h1
      rw [decChars_quote] at h
      cases h
      exact ⟨[], [], rfl, by simp, .nil⟩
    by_cases h2 : c = 92
    · subst h2
      cases t with
      | nil => rw [decChars.eq_def] at h; simp at h
      | cons e t =>
      simp only [List.length_cons] at hk
      cases he : simpleEscape e with
      | some x =>
        rw [decChars_simple he] at h
        obtain ⟨t', o, e1, e2, e3⟩ := ih t _ out rest (by omega) h
        exact ⟨92 :: e :: t', x :: o, by rw [e1]; rfl, by rw [e2]; simp, .short e x t' o ((simpleEscape_iff e x).mp he) e3⟩
      | none =>
        by_cases hu : e = 117
        · subst hu
          match t, hk, h with
          | [], _, h => rw [decChars.eq_def] at h; simp [he] at h
          | [_], _, h => rw [decChars.eq_def] at h; simp [he] at h
          | [_, _], _, h => rw [decChars.eq_def] at h; simp [he] at h
          | [_, _, _], _, h => rw [decChars.eq_def] at h; simp [he] at h
          | a :: b :: c :: d :: t, hk, h =>
            simp only [List.length_cons] at hk
            cases hx : hex4 a b c d with
            | none => rw [decChars.eq_def] at h; simp [he, hx] at h
            | some r =>
              rw [decChars_hex hx] at h
              obtain ⟨t', o, e1, e2, e3⟩ := ih t _ out rest (by omega) h
              obtain ⟨n1, n2, n3, n4, g1, g2, g3, g4, g5⟩ := hex4_some hx
              subst g5
              have := g1.lt; have := g2.lt; have := g3.lt; have := g4.lt
              by_cases hs : 0xD800 ≤ ((n1 * 16 + n2) * 16 + n3) * 16 + n4 ∧ ((n1 * 16 + n2) * 16 + n3) * 16 + n4 < 0xE000
              · rw [runeBytes_surrogate hs.1 hs.2] at e2
                exact ⟨_, _, by rw [e1]; rfl, by rw [e2, List.append_assoc], .surrogate a b c d n1 n2 n3 n4 t' o g1 g2 g3 g4 hs.1 hs.2 e3⟩
              · have hsc : Scalar (((n1 * 16 + n2) * 16 + n3) * 16 + n4) := by unfold Scalar; omega
                rw [runeBytes_ok hsc (by omega)] at e2
                exact ⟨_, _, by rw [e1]; rfl, by rw [e2, List.append_assoc], .scalar a b c d n1 n2 n3 n4 t' o g1 g2 g3 g4 hsc e3⟩
        · rw [decChars.eq_def] at h; simp [he, hu] at h
    · rw [decChars_char h1 h2] at h
      obtain ⟨t', o, e1, e2, e3⟩ := ih t _ out rest (by omega) h
      exact ⟨c :: t', c :: o, by rw [e1]; rfl, by rw [e2]; simp, .byte c t' o h1 h2 e3⟩

/-- C48: exactly which texts are read as strings, and as what: a quote, then any bytes with the escapes of RFC 8259 (an
escaped surrogate is U+FFFD), then a quote. Everything else is refused: unknown escapes, escapes with fewer than four
hexadecimal digits, a missing quote. -/
theorem string_accepts (s out rest : List UInt8) :
    decString s = .ok (out, rest) ↔ ∃ t, s = 0x22 :: (t ++ 0x22 :: rest) ∧ Lenient t out := by
  constructor
  · intro h
    cases s with
    | nil => cases h
    | cons c t =>
      rw [decString] at h
      by_cases hc : c = 34
      · rw [if_pos hc] at h
        obtain ⟨t', o, e1, e2, e3⟩ := lenient_of_decChars _ _ _ _ _ (Nat.le_refl _) h
        rw [List.nil_append] at e2
        subst e2
        exact ⟨t', by rw [hc, e1], e3⟩
      · rw [if_neg hc] at h; cases h
  · rintro ⟨t, rfl, h⟩
    rw [decString, if_pos rfl]
    simpa using decChars_lenient h [] rest

example : Lenient [92, 117, 100, 70, 102, 70, 92, 47, 7] [0xEF, 0xBF, 0xBD, 47, 7] :=
  .surrogate 100 70 102 70 13 15 15 15 _ _ (by unfold HexDigit; decide) (by unfold HexDigit; decide)
    (by unfold HexDigit; decide) (by unfold HexDigit; decide) (by decide) (by decide)
    (.short 47 47 _ _ (by decide) (.byte 7 _ _ (by decide) (by decide) .nil))

/-- C48 is false of surrogate pairs: an escaped U+1F600 is decoded to two U+FFFD. -/
theorem string_decoded_fails : ∃ t cs out, Chars true t cs ∧ decString ([34] ++ t ++ [34]) = .ok (out, []) ∧ out ≠ cs.flatMap utf8 := by
  refine ⟨[92, 117, 100, 56, 51, 100, 92, 117, 100, 101, 48, 48], [0x1F600], [0xEF, 0xBF, 0xBD, 0xEF, 0xBF, 0xBD], ?_, by decide +kernel, by decide +kernel⟩
  exact .pair 100 56 51 100 100 101 48 48 13 8 3 13 13 14 0 0 0x3D 0x200 [] [] rfl
    (by unfold HexDigit; decide) (by unfold HexDigit; decide) (by unfold HexDigit; decide) (by unfold HexDigit; decide)
    (by unfold HexDigit; decide) (by unfold HexDigit; decide) (by unfold HexDigit; decide) (by unfold HexDigit; decide)
    (by decide) (by decide) (by decide) (by decide) .nil

/-! ### C49: the encoder writes JSON -/

/-- C49 for plain values: what is written is a JSON text denoting the value.
Missing: structs writing two or more fields, arrays, kinds that write nothing, for which it is false (`encoder_json_fails`,
`encoder_array_fails`, `encoder_other_fails`), and empty byte slices (`bytes_base64_fails`). -/
theorem encoder_json_partial (v : Val) (h : Plain v) :
    (∃ j, Denotes v j) ∧ ∃ out, encode v = some out ∧ ∀ j, Denotes v j → Json out j := plain_written h

/-- A slice of a map, a byte slice, and a struct with one of two fields omitted. -/
example : Plain (.slice [.map [(.str [97], .int (-5)), (.str [98], .bytes none)], .bytes (some [1, 2]),
    .struct [([120], false, .bool true), ([121], true, .nilv)]]) ∧
    encode (.slice [.map [(.str [97], .int (-5)), (.str [98], .bytes none)], .bytes (some [1, 2]),
    .struct [([120], false, .bool true), ([121], true, .nilv)]]) =
    some ("[{\"a\":-5,\"b\":null},\"AQI=\",{\"x\":true}]".toUTF8.toList) := by
  have px : ∀ c : Nat, 0x61 ≤ c → c < 0x7F → PlainName [UInt8.ofNat c] := by
    intro c h1 h2
    refine ⟨[c], ?_, ?_⟩
    · simp [utf8_ascii (show c < 0x80 by omega)]
    · intro x hx; simp only [List.mem_singleton] at hx; subst hx
      refine ⟨by unfold Scalar; omega, by omega, by omega, by omega⟩
  refine ⟨?_, by decide +kernel⟩
  refine .slice _ ?_
  intro v hv
  simp only [List.mem_cons, List.not_mem_nil, or_false] at hv
  rcases hv with rfl | rfl | rfl
  · refine .map _ ?_ ?_
    · intro kv hkv; simp only [List.mem_cons, List.not_mem_nil, or_false] at hkv; rcases hkv with rfl | rfl <;> exact ⟨_, rfl⟩
    · intro kv hkv; simp only [List.mem_cons, List.not_mem_nil, or_false] at hkv
      rcases hkv with rfl | rfl
      · exact .int _
      · exact .bytesNil
  · exact .bytes _ (by simp)
  · refine .struct _ (by decide) ?_ ?_
    · intro f hf; simp only [List.mem_cons, List.not_mem_nil, or_false] at hf
      rcases hf with rfl | rfl
      · exact px 120 (by decide) (by decide)
      · exact px 121 (by decide) (by decide)
    · intro f hf; simp only [List.mem_cons, List.not_mem_nil, or_false] at hf
      rcases hf with rfl | rfl
      · exact .bool _
      · exact .nilv

/-- C49 is false of structs with two fields: no comma separates them, and the result is no JSON text. -/
theorem encoder_json_fails : ∃ v j out, Denotes v j ∧ encode v = some out ∧ ∀ j', ¬ Json out j' := by
  refine ⟨.struct [([97], false, .bool true), ([98], false, .bool true)], .obj [([97], .bool true), ([98], .bool true)],
    "{\"a\":true\"b\":true}".toUTF8.toList, ?_, by decide +kernel, ?_⟩
  · refine .struct _ _ ?_
    have ha : Decoded [97] [97] := by
      have := Decoded.scalar 97 [] [] (by unfold Scalar; decide) .nil
      simpa [utf8_ascii] using this
    have hb : Decoded [98] [98] := by
      have := Decoded.scalar 98 [] [] (by unfold Scalar; decide) .nil
      simpa [utf8_ascii] using this
    exact .cons (.mk _ _ _ _ _ ha (.bool _)) (.cons (.mk _ _ _ _ _ hb (.bool _)) .nil)
  · intro j' h
    have := auto_json h
    revert this
    decide +kernel

/-- C49 is false of arrays: encoding one panics. -/
theorem encoder_array_fails : ∃ v j, Denotes v j ∧ encode v = none :=
  ⟨.array [], .arr [], .array _ _ .nil, by rw [encode]⟩

/-- C49 is false of a slice holding a value of a kind the encoder ignores: nothing is written for it. -/
theorem encoder_other_fails : ∃ v out, encode v = some out ∧ ∀ j, ¬ Json out j := by
  refine ⟨.slice [.other, .bool true], "[,true]".toUTF8.toList, by decide +kernel, ?_⟩
  intro j h
  generalize hw : "[,true]".toUTF8.toList = w at h
  have e : "[,true]".toUTF8.toList = [91, 44, 116, 114, 117, 101, 93] := by decide +kernel
  rw [e] at hw
  cases h with
  | nat ds hd =>
    subst hw
    have := hd.2 91 (by simp)
    revert this; decide
  | arr t vs h =>
    have ht : t = [44, 116, 114, 117, 101] := by
      have : [44, 116, 114, 117, 101, 93] = t ++ [93] := (List.cons.inj hw).2
      exact (List.append_inj_left (t₁ := [93]) (s₁ := [44, 116, 114, 117, 101]) this (by have := congrArg List.length this; simp at this; simp; omega)).symm
    have hne : ∀ {u v}, Json u v → u.head? ≠ some 44 ∧ u ≠ [] := by
      intro u v hu
      cases hu with
      | nat ds hd =>
        refine ⟨?_, hd.1⟩
        intro hh
        have := hd.2 44 (List.mem_of_head? hh)
        revert this; decide
      | _ => exact ⟨by simp, by simp⟩
    subst ht
    generalize hx : ([44, 116, 114, 117, 101] : List UInt8) = x at h
    cases h with
    | one _ _ h => subst hx; exact (hne h).1 rfl
    | more t u _ _ h _ =>
      obtain ⟨h1, h2⟩ := hne h
      cases t with
      | nil => exact h2 rfl
      | cons a t => have := (List.cons.inj hx).1; subst this; exact h1 rfl
  | _ => cases hw

/-! ### C50: values survive the codec -/

/-- C50 for values that fit their type and are not empty, nil or byte slices: encoding and decoding, in the middle of any
JSON text, returns the value and leaves the rest of the text.
Missing: empty slices and maps, nil pointers, byte slices, for which it is false (below), structs and floats. -/
theorem codec_round_trip_partial (ty : Ty) (v : Val) (h : Fits ty v) (rest : List UInt8) (hr : NumberEnd rest) :
    ∃ out, encode v = some out ∧ decode ty (out ++ rest) = .ok (v, rest) := by
  obtain ⟨c, out, _, e, h⟩ := fits_trip h
  exact ⟨_, e, h rest hr⟩

/-- A map from strings to slices of pointers to integers fits. -/
example : Fits (.map (.slice (.ptr (.int 8)))) (.map (([[97], [98]].map Val.str).zip [.slice [.ptr (.int 3), .ptr (.int (-128))], .slice [.ptr (.int 7)]])) := by
  have hu : ∀ c : Nat, c < 0x80 → Utf8 [UInt8.ofNat c] := by
    intro c hc
    refine ⟨[c], by simp [utf8_ascii hc], ?_⟩
    intro x hx; simp only [List.mem_singleton] at hx; subst hx; unfold Scalar; omega
  have hi : ∀ i : Int, -128 ≤ i → i < 128 → Fits (.ptr (.int 8)) (.ptr (.int i)) :=
    fun i h1 h2 => .ptr _ _ (.int 8 i (by decide) (by decide) (by simpa using h1) (by simpa using h2))
  refine .map _ _ _ (by simp) (by simp) (by decide) ?_ ?_
  · intro k hk; simp only [List.mem_cons, List.not_mem_nil, or_false] at hk
    rcases hk with rfl | rfl
    · exact hu 97 (by decide)
    · exact hu 98 (by decide)
  · intro v hv; simp only [List.mem_cons, List.not_mem_nil, or_false] at hv
    rcases hv with rfl | rfl
    · refine .slice _ _ (by simp) (by simp) ?_
      intro v hv; simp only [List.mem_cons, List.not_mem_nil, or_false] at hv
      rcases hv with rfl | rfl <;> exact hi _ (by decide) (by decide)
    · refine .slice _ _ (by simp) (by simp) ?_
      intro v hv; simp only [List.mem_cons, List.not_mem_nil, or_false] at hv
      subst hv; exact hi _ (by decide) (by decide)

/-- When a key is repeated the last value is kept. -/
theorem repeated_key_last_wins (e : Ty) (k : List UInt8) (v w : Val) (hk : Utf8 k) (hv : Fits e v) (hw : Fits e w) (rest : List UInt8) :
    ∃ a b, encode v = some a ∧ encode w = some b ∧
      decode (.map e) ([123] ++ encString k ++ [58] ++ a ++ [44] ++ encString k ++ [58] ++ b ++ [125] ++ rest) =
        .ok (.map [(.str k, w)], rest) := by
  obtain ⟨c, a, h0, e1, h1⟩ := fits_trip hv
  obtain ⟨c', b, h0', e2, h2⟩ := fits_trip hw
  refine ⟨_, _, e1, e2, ?_⟩
  obtain ⟨q, hq⟩ := encString_cons k
  have hkey := fun rest => hk.trip rest
  rw [hq] at hkey ⊢
  have e : [123] ++ 34 :: q ++ [58] ++ c :: a ++ [44] ++ 34 :: q ++ [58] ++ c' :: b ++ [125] ++ rest =
    123 :: (34 :: q ++ 58 :: (c :: a ++ 44 :: (34 :: q ++ 58 :: (c' :: b ++ 125 :: rest)))) := by simp
  rw [e, decode, skipWs_char (by decide)]
  simp only [ok_bind, ne_eq, not_true_eq_false, if_false]
  rw [skipWs_app (by decide)]
  simp only [ok_bind]
  generalize hn : (34 :: q ++ 58 :: (c :: a ++ 44 :: (34 :: q ++ 58 :: (c' :: b ++ 125 :: rest)))).length = n
  obtain ⟨m, rfl⟩ : ∃ m, n = m + 2 := ⟨n - 2, by simp at hn; omega⟩
  rw [entryLoop, skipWs_app (by decide)]
  simp only [ok_bind]
  rw [hkey]
  simp only [ok_bind]
  rw [skipWs_char (by decide)]
  simp only [ok_bind, ne_eq, not_true_eq_false, if_false]
  rw [skipWs_app h0.1]
  simp only [ok_bind]
  rw [h1 _ (end_comma _)]
  simp only [ok_bind]
  rw [skipWs_char (by decide)]
  simp only [ok_bind, if_true]
  rw [if_neg (by decide), skipWs_app (by decide)]
  simp only [ok_bind]
  rw [entryLoop, skipWs_app (by decide)]
  simp only [ok_bind]
  rw [hkey]
  simp only [ok_bind]
  rw [skipWs_char (by decide)]
  simp only [ok_bind, ne_eq, not_true_eq_false, if_false]
  rw [skipWs_app h0'.1]
  simp only [ok_bind]
  rw [h2 _ (end_brace _)]
  simp only [ok_bind]
  rw [skipWs_char (by decide)]
  simp only [ok_bind, if_true, setKey, Except.map]

example : Fits .bool (.bool true) ∧ Utf8 [] := ⟨.bool _, [], rfl, by simp⟩

/-- C50 is false of an empty slice inside another (its bracket is not consumed, so the outer slice ends early), of an empty
map, of a nil pointer and of a byte slice. -/
theorem codec_round_trip_fails :
    (∃ out, encode (.slice [.slice [], .slice [.int 1]]) = some out ∧
      (decode (.slice (.slice (.int 64))) out).map Prod.snd = .ok [44, 91, 49, 93, 93]) ∧
    (∃ out, encode (.map []) = some out ∧ (decode (.map (.int 64)) out).map Prod.snd = .error .notString) ∧
    (∃ out, encode .nilv = some out ∧ ∀ rest, (decode (.ptr (.int 64)) (out ++ 44 :: rest)).map Prod.snd = .error .notInteger) ∧
    (∃ out, encode (.bytes (some [1])) = some out ∧ (decode (.slice (.uint 8)) out).map Prod.snd = .error .notArray) :=
  ⟨⟨"[[],[1]]".toUTF8.toList, by decide +kernel, by decide +kernel⟩, ⟨_, rfl, by decide +kernel⟩, ⟨_, rfl, fun _ => rfl⟩,
    ⟨_, rfl, by decide +kernel⟩⟩

theorem ptr_ne_nil (e : Ty) (s : List UInt8) (r : List UInt8) : ((decode e s).map fun r => (Val.ptr r.1, r.2)) ≠ .ok (.nilv, r) := by
  cases decode e s <;> simp [Except.map]

/-- C50: a nil pointer is read from the text `null` followed by a zero byte, and from nothing else; the encoder writes no
zero byte. -/
theorem nil_read_iff (e : Ty) (c : UInt8) (s : List UInt8) (hc : c ≠ 32 ∧ c ≠ 9 ∧ c ≠ 10 ∧ c ≠ 13) (rest : List UInt8) :
    decode (.ptr e) (c :: s) = .ok (.nilv, rest) ↔ c :: s = [110, 117, 108, 108, 0] ++ rest := by
  have hw : skipWs (c :: s) = .ok (c :: s) := by rw [skipWs, if_neg (by simp [hc])]
  rw [decode, hw]
  show (nullTest (c :: s) >>= _) = _ ↔ _
  constructor
  · intro h
    cases hn : nullTest (c :: s) with
    | error x => rw [hn] at h; cases h
    | ok p =>
      obtain ⟨b, s'⟩ := p
      rw [hn] at h
      cases b with
      | false => exact absurd h (ptr_ne_nil e s' rest)
      | true =>
        have hr : s' = rest := by
          have h' : (Except.ok (Val.nilv, s') : Except Err _) = .ok (.nilv, rest) := h
          injection h' with h'
          injection h'
        subst hr
        clear h
        rw [nullTest.eq_def] at hn
        dsimp only at hn
        repeat' (split at hn)
        all_goals first | cases hn; done | skip
        all_goals simp_all
  · intro h
    rw [h]; rfl

example : decode (.ptr .bool) [110, 117, 108, 108, 0, 7] = .ok (.nilv, [7]) := rfl

/-! ### C51: booleans -/

/-- C51 for a variable holding false: the texts `true` and `false` are read as their values.
Missing: refusal of other texts and variables holding true, for which it is false (`bool_fails`). -/
theorem bool_partial (b : Bool) (rest : List UInt8) : ∃ out, encode (.bool b) = some out ∧ decode .bool (out ++ rest) = .ok (.bool b, rest) := by
  cases b
  · exact ⟨_, rfl, rfl⟩
  · exact ⟨_, rfl, rfl⟩

/-- C51 is false in general: `false` read into a variable that holds true leaves true, `falsy` is read as false and `fale` as
true. -/
theorem bool_fails :
    boolLoop true 0 [102, 97, 108, 115, 101] = .ok (true, []) ∧ boolLoop false 0 [102, 97, 108, 115, 121] = .ok (false, []) ∧
    boolLoop false 0 [102, 97, 108, 101] = .ok (true, []) := ⟨rfl, rfl, rfl⟩

end Verif.Jrpc
