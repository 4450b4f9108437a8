import Verif.Jrpc.Lemmas

/-! Lemmas: base64, decoding of strings and integers, the buffer. -/
namespace Verif.Jrpc

/-! ### base64 -/

theorem std_ok {n : Nat} (h : n < 64) : B64 (std n) n := by
  unfold B64 std
  by_cases h1 : n < 26
  · left; rw [if_pos h1, toNat_ofNat (by omega)]; exact ⟨h1, rfl⟩
  · right
    by_cases h2 : n < 52
    · left; rw [if_neg h1, if_pos h2, toNat_ofNat (by omega)]; omega
    · right
      by_cases h3 : n < 62
      · left; rw [if_neg h1, if_neg h2, if_pos h3, toNat_ofNat (by omega)]; omega
      · right
        by_cases h4 : n = 62
        · left; subst h4; exact ⟨rfl, rfl⟩
        · right
          have : n = 63 := by omega
          subst this; exact ⟨rfl, rfl⟩

theorem quanta_ok : ∀ b : List UInt8, Base64 (quanta b) b
  | b0 :: b1 :: b2 :: t => by
    have h0 := b0.toNat_lt
    have h1 := b1.toNat_lt
    have h2 := b2.toNat_lt
    have e1 : b1.toNat <<< 8 ||| b2.toNat = b1.toNat * 256 + b2.toNat := shl_or _ _ 8 (by omega)
    have ex : b0.toNat <<< 16 ||| b1.toNat <<< 8 ||| b2.toNat = (b0.toNat * 256 + b1.toNat) * 256 + b2.toNat := by
      rw [Nat.or_assoc, e1, shl_or _ _ 16 (by omega)]; omega
    rw [quanta]
    rw [ex]
    simp only [Nat.shiftRight_eq_div_pow, and_3f]
    generalize hx : (b0.toNat * 256 + b1.toNat) * 256 + b2.toNat = x
    exact .full _ _ _ _ _ _ _ (x / 2 ^ 18) (x / 2 ^ 12 % 64) (x / 2 ^ 6 % 64) (x % 64) _ _ (std_ok (by omega)) (std_ok (by omega))
      (std_ok (by omega)) (std_ok (by omega)) (by omega) (quanta_ok t)
  | [b0] => by
    have h0 := b0.toNat_lt
    rw [quanta]
    simp only [Nat.shiftRight_eq_div_pow, Nat.shiftLeft_eq, and_3f]
    exact .one _ _ _ (b0.toNat / 2 ^ 2) (b0.toNat * 2 ^ 4 % 64) (std_ok (by omega)) (std_ok (by omega)) (by omega)
  | [b0, b1] => by
    have h0 := b0.toNat_lt
    have h1 := b1.toNat_lt
    rw [quanta]
    rw [shl_or _ _ 8 (by omega)]
    simp only [Nat.shiftRight_eq_div_pow, Nat.shiftLeft_eq, and_3f]
    generalize hx : b0.toNat * 2 ^ 8 + b1.toNat = x
    exact .two _ _ _ _ _ (x / 2 ^ 10) (x / 2 ^ 4 % 64) (x * 2 ^ 2 % 64) (std_ok (by omega)) (std_ok (by omega)) (std_ok (by omega)) (by omega)
  | [] => .nil

/-! ### Decoding strings -/

theorem hexVal_ok {b : UInt8} {n : Nat} (h : HexDigit b n) : hexVal b = some n := by
  unfold HexDigit at h
  unfold hexVal
  dsimp only
  rcases h with ⟨h1, h2⟩ | ⟨h1, h2, h3 | h3⟩
  · rw [if_pos (by omega)]; congr 1; omega
  · rw [if_neg (by omega), if_neg (by omega), if_pos (by omega)]; congr 1; omega
  · rw [if_neg (by omega), if_pos (by omega)]; congr 1; omega

theorem hex4_ok {a b c d : UInt8} {n1 n2 n3 n4 : Nat} (h1 : HexDigit a n1) (h2 : HexDigit b n2) (h3 : HexDigit c n3) (h4 : HexDigit d n4) :
    hex4 a b c d = some (((n1 * 16 + n2) * 16 + n3) * 16 + n4) := by
  simp only [hex4, hexVal_ok h1, hexVal_ok h2, hexVal_ok h3, hexVal_ok h4, Option.bind_eq_bind, Option.bind_some, Nat.shiftLeft_eq]
  congr 1
  omega

theorem or_add {a b k : Nat} (h : b < 2 ^ k) : 2 ^ k * a ||| b = 2 ^ k * a + b := (Nat.two_pow_add_eq_or_of_lt h a).symm

theorem runeBytes_ok {c : Nat} (hc : Scalar c) (h : c < 0x10000) : runeBytes c = utf8 c := by
  unfold Scalar at hc
  unfold runeBytes utf8
  by_cases h1 : c < 0x80
  · rw [if_pos (by omega), if_pos h1]
  · rw [if_neg (by omega), if_neg h1]
    have e80 : ∀ x, x < 64 → 0x80 ||| x = 0x80 + x := fun x hx => or_add (a := 2) (k := 6) hx
    by_cases h2 : c < 0x800
    · rw [if_pos (by omega), if_pos h2]
      rw [and_3f, e80 _ (by omega), Nat.shiftRight_eq_div_pow]
      rw [show 0xC0 ||| c / 2 ^ 6 = 0xC0 + c / 64 from or_add (a := 6) (k := 5) (by omega)]
    · rw [if_neg (by omega), if_neg h2, if_neg (by omega), if_pos h]
      rw [and_3f, and_3f, e80 _ (by omega), e80 _ (by omega), Nat.shiftRight_eq_div_pow, Nat.shiftRight_eq_div_pow]
      rw [show 0xE0 ||| c / 2 ^ 12 = 0xE0 + c / 4096 from or_add (a := 14) (k := 4) (by omega)]

theorem decChars_quote (buf t : List UInt8) : decChars buf (34 :: t) = .ok (buf, t) := by
  rw [decChars.eq_def]; simp

theorem decChars_char {c : UInt8} (h1 : c ≠ 34) (h2 : c ≠ 92) (buf t : List UInt8) : decChars buf (c :: t) = decChars (buf ++ [c]) t := by
  rw [decChars.eq_def]; simp only [if_neg h1, if_neg h2]

theorem decChars_simple {e x : UInt8} (h : simpleEscape e = some x) (buf t : List UInt8) :
    decChars buf (92 :: e :: t) = decChars (buf ++ [x]) t := by
  rw [decChars.eq_def]; simp [h]

theorem decChars_hex {a b c d : UInt8} {r : Nat} (h : hex4 a b c d = some r) (buf t : List UInt8) :
    decChars buf (92 :: 117 :: a :: b :: c :: d :: t) = decChars (buf ++ runeBytes r) t := by
  rw [decChars.eq_def]
  have hn : simpleEscape 117 = none := by decide
  simp [hn, h]

theorem decChars_raw : ∀ (w : List UInt8), (∀ b ∈ w, b ≠ 34 ∧ b ≠ 92) → ∀ (buf t : List UInt8), decChars buf (w ++ t) = decChars (buf ++ w) t
  | [], _, buf, t => by simp
  | b :: w, h, buf, t => by
    obtain ⟨h1, h2⟩ := h b (by simp)
    rw [List.cons_append, decChars_char h1 h2, decChars_raw w (fun x hx => h x (by simp [hx]))]
    simp

theorem utf8_no_special {c : Nat} (hc : Scalar c) (h1 : c ≠ 0x22) (h2 : c ≠ 0x5C) : ∀ b ∈ utf8 c, b ≠ 34 ∧ b ≠ 92 := by
  unfold Scalar at hc
  have key : ∀ n : Nat, n < 256 → n ≠ 34 → n ≠ 92 → UInt8.ofNat n ≠ 34 ∧ UInt8.ofNat n ≠ 92 := by
    intro n hn h3 h4
    constructor
    · intro e; have := congrArg UInt8.toNat e; rw [toNat_ofNat hn] at this; exact h3 this
    · intro e; have := congrArg UInt8.toNat e; rw [toNat_ofNat hn] at this; exact h4 this
  unfold utf8
  intro b hb
  repeat' split at hb
  · simp only [List.mem_singleton] at hb; subst hb; exact key _ (by omega) h1 h2
  · simp only [List.mem_cons, List.not_mem_nil, or_false] at hb
    rcases hb with rfl | rfl <;> exact key _ (by omega) (by omega) (by omega)
  · simp only [List.mem_cons, List.not_mem_nil, or_false] at hb
    rcases hb with rfl | rfl | rfl <;> exact key _ (by omega) (by omega) (by omega)
  · simp only [List.mem_cons, List.not_mem_nil, or_false] at hb
    rcases hb with rfl | rfl | rfl | rfl <;> exact key _ (by omega) (by omega) (by omega)

theorem HexDigit.lt {b n} (h : HexDigit b n) : n < 16 := by unfold HexDigit at h; omega

theorem simple_ok {e : UInt8} {c : Nat}
    (h : (e.toNat, c) ∈ [(0x22, 0x22), (0x5C, 0x5C), (0x2F, 0x2F), (0x62, 8), (0x66, 12), (0x6E, 10), (0x72, 13), (0x74, 9)]) :
    c < 0x80 ∧ simpleEscape e = some (UInt8.ofNat c) := by
  simp only [List.mem_cons, Prod.mk.injEq, List.not_mem_nil, or_false] at h
  rcases h with ⟨h1, rfl⟩ | ⟨h1, rfl⟩ | ⟨h1, rfl⟩ | ⟨h1, rfl⟩ | ⟨h1, rfl⟩ | ⟨h1, rfl⟩ | ⟨h1, rfl⟩ | ⟨h1, rfl⟩ <;>
    (have he := ofNat_toNat e h1.symm; subst he; exact ⟨by omega, by decide⟩)

theorem decChars_ok {t : List UInt8} {cs : List Nat} (h : Chars false t cs) : ∀ (buf rest : List UInt8),
    decChars buf (t ++ 34 :: rest) = .ok (buf ++ cs.flatMap utf8, rest) := by
  induction h with
  | nil => intro buf rest; rw [List.nil_append, decChars_quote]; simp
  | raw c t cs hc _ h2 h3 _ ih =>
    intro buf rest
    rw [List.append_assoc, decChars_raw _ (utf8_no_special hc h2 h3), ih]
    simp
  | short e c t cs he _ ih =>
    intro buf rest
    obtain ⟨h1, h2⟩ := simple_ok he
    simp only [List.cons_append]
    rw [decChars_simple h2, ih]
    simp [utf8_ascii h1]
  | hex a b c d n1 n2 n3 n4 t cs h1 h2 h3 h4 hs _ ih =>
    intro buf rest
    simp only [List.cons_append]
    rw [decChars_hex (hex4_ok h1 h2 h3 h4), ih, runeBytes_ok hs (by have := h1.lt; have := h2.lt; have := h3.lt; have := h4.lt; omega)]
    simp
  | pair => contradiction

/-! ### Integers -/

theorem isTerm_iff {c : UInt8} : isTerm c = true ↔ c.toNat ∈ [0x2C, 0x7D, 0x5D, 0x20, 0x09, 0x0A, 0x0D] := by
  have key : ∀ n : Nat, n < 256 → (c = UInt8.ofNat n ↔ c.toNat = n) := by
    intro n hn
    constructor
    · rintro rfl; exact toNat_ofNat hn
    · intro h; exact (ofNat_toNat c h.symm).symm
  simp only [isTerm, decide_eq_true_eq, List.mem_cons, List.not_mem_nil, or_false]
  rw [← key 0x2C (by omega), ← key 0x7D (by omega), ← key 0x5D (by omega), ← key 0x20 (by omega), ← key 9 (by omega),
    ← key 10 (by omega), ← key 13 (by omega)]
  exact Iff.rfl

theorem digit_facts {d : UInt8} (h : 48 ≤ d.toNat ∧ d.toNat ≤ 57) : d ≠ 45 ∧ isTerm d = false ∧ ¬ (d.toNat < 48 ∨ 57 < d.toNat) := by
  refine ⟨?_, ?_, by omega⟩
  · rintro rfl; revert h; decide
  · cases e : isTerm d with
    | false => rfl
    | true =>
      rw [isTerm_iff] at e
      simp only [List.mem_cons, List.not_mem_nil, or_false] at e
      omega

theorem reg_step (n d : Nat) : BitVec.ofNat 64 n * 10 + BitVec.ofNat 64 d = BitVec.ofNat 64 (n * 10 + d) := by
  apply BitVec.eq_of_toNat_eq
  simp [BitVec.toNat_add, BitVec.toNat_mul]

theorem intLoop_digits : ∀ (ds : List UInt8), (∀ d ∈ ds, 48 ≤ d.toNat ∧ d.toNat ≤ 57) → ∀ (n : Nat) (neg : Bool) (rest : List UInt8),
    intLoop (BitVec.ofNat 64 n) neg (ds ++ rest) =
      intLoop (BitVec.ofNat 64 (ds.foldl (fun n d => n * 10 + (d.toNat - 48)) n)) neg rest
  | [], _, n, neg, rest => by simp
  | d :: ds, h, n, neg, rest => by
    obtain ⟨h1, h2, h3⟩ := digit_facts (h d (by simp))
    rw [List.cons_append, intLoop, if_neg h1, h2, if_neg (by simp), if_neg h3, reg_step,
      intLoop_digits ds (fun x hx => h x (by simp [hx]))]
    rfl

theorem uintLoop_digits : ∀ (ds : List UInt8), (∀ d ∈ ds, 48 ≤ d.toNat ∧ d.toNat ≤ 57) → ∀ (n : Nat) (rest : List UInt8),
    uintLoop (BitVec.ofNat 64 n) (ds ++ rest) =
      uintLoop (BitVec.ofNat 64 (ds.foldl (fun n d => n * 10 + (d.toNat - 48)) n)) rest
  | [], _, n, rest => by simp
  | d :: ds, h, n, rest => by
    obtain ⟨h1, h2, h3⟩ := digit_facts (h d (by simp))
    rw [List.cons_append, uintLoop, h2, if_neg (by simp), if_neg h3, reg_step,
      uintLoop_digits ds (fun x hx => h x (by simp [hx]))]
    rfl

theorem intLoop_end {rest : List UInt8} (h : NumberEnd rest) (r : BitVec 64) (neg : Bool) :
    intLoop r neg rest = .ok (if neg then -r else r, rest) := by
  rcases h with rfl | ⟨c, t, rfl, hc⟩
  · rw [intLoop]
  · have h1 := isTerm_iff.mpr hc
    rw [intLoop, if_neg, if_pos h1]
    rintro rfl; revert h1; decide

theorem uintLoop_end {rest : List UInt8} (h : NumberEnd rest) (r : BitVec 64) : uintLoop r rest = .ok (r, rest) := by
  rcases h with rfl | ⟨c, t, rfl, hc⟩
  · rw [uintLoop]
  · rw [uintLoop, if_pos (isTerm_iff.mpr hc)]

theorem appendUint_spec (n : Nat) : Digits (appendUint n) ∧ digitsVal (appendUint n) = n ∧
    ((appendUint n).head? = some 48 → appendUint n = [48]) := by
  induction n using Nat.strongRecOn with
  | _ n ih =>
    rw [appendUint]
    split
    · rename_i h
      refine ⟨⟨by simp, ?_⟩, ?_, ?_⟩
      · intro d hd; simp only [List.mem_singleton] at hd; subst hd; rw [toNat_ofNat (by omega)]; omega
      · simp [digitsVal, Nat.mod_eq_of_lt (show 48 + n < 256 by omega)]
      · intro e; simp only [List.head?_cons, Option.some.injEq] at e; rw [e]
    · rename_i h
      obtain ⟨⟨i1, i2⟩, i3, i4⟩ := ih (n / 10) (by omega)
      refine ⟨⟨by simp, ?_⟩, ?_, ?_⟩
      · intro d hd
        rcases List.mem_append.mp hd with hd | hd
        · exact i2 d hd
        · simp only [List.mem_singleton] at hd; subst hd; rw [toNat_ofNat (by omega)]; omega
      · unfold digitsVal at i3 ⊢
        rw [List.foldl_append, i3]
        simp only [List.foldl_cons, List.foldl_nil]
        rw [toNat_ofNat (by omega)]; omega
      · intro e
        have e' : (appendUint (n / 10)).head? = some 48 := by
          cases hh : appendUint (n / 10) with
          | nil => exact absurd hh i1
          | cons x xs => rw [hh] at e; simpa using e
        have := i4 e'
        rw [this] at i3
        have : n / 10 = 0 := by rw [← i3]; decide
        omega

/-- What the signed loop accepts. -/
theorem intLoop_accepts : ∀ (s : List UInt8) (r : BitVec 64) (neg : Bool) (x : BitVec 64) (rest : List UInt8),
    intLoop r neg s = .ok (x, rest) →
    ∃ ds, s = ds ++ rest ∧ (∀ d ∈ ds, d = 45 ∨ (48 ≤ d.toNat ∧ d.toNat ≤ 57)) ∧ NumberEnd rest
  | [], r, neg, x, rest, h => by
    rw [intLoop] at h; cases h; exact ⟨[], rfl, by simp, .inl rfl⟩
  | c :: t, r, neg, x, rest, h => by
    rw [intLoop] at h
    split at h
    · rename_i hc
      obtain ⟨ds, e, h1, h2⟩ := intLoop_accepts t _ _ _ _ h
      refine ⟨c :: ds, by rw [e]; rfl, ?_, h2⟩
      intro d hd
      rcases List.mem_cons.mp hd with rfl | hd
      · left; exact hc
      · exact h1 d hd
    · split at h
      · rename_i hc
        cases h
        exact ⟨[], rfl, by simp, .inr ⟨c, t, rfl, isTerm_iff.mp hc⟩⟩
      · split at h
        · cases h
        · rename_i hc
          obtain ⟨ds, e, h1, h2⟩ := intLoop_accepts t _ _ _ _ h
          refine ⟨c :: ds, by rw [e]; rfl, ?_, h2⟩
          intro d hd
          rcases List.mem_cons.mp hd with rfl | hd
          · right; omega
          · exact h1 d hd

theorem uintLoop_accepts : ∀ (s : List UInt8) (r : BitVec 64) (x : BitVec 64) (rest : List UInt8),
    uintLoop r s = .ok (x, rest) → ∃ ds, s = ds ++ rest ∧ (∀ d ∈ ds, 48 ≤ d.toNat ∧ d.toNat ≤ 57) ∧ NumberEnd rest
  | [], r, x, rest, h => by
    rw [uintLoop] at h; cases h; exact ⟨[], rfl, by simp, .inl rfl⟩
  | c :: t, r, x, rest, h => by
    rw [uintLoop] at h
    split at h
    · rename_i hc
      cases h
      exact ⟨[], rfl, by simp, .inr ⟨c, t, rfl, isTerm_iff.mp hc⟩⟩
    · split at h
      · cases h
      · rename_i hc
        obtain ⟨ds, e, h1, h2⟩ := uintLoop_accepts t _ _ _ h
        refine ⟨c :: ds, by rw [e]; rfl, ?_, h2⟩
        intro d hd
        rcases List.mem_cons.mp hd with rfl | hd
        · omega
        · exact h1 d hd

/-! ### The buffer -/

/-- The decoder holds `seg[head:size]` of the stream; when that is empty either the buffer was just recycled or the
reader has nothing more to give. -/
structure BufInv (d : Dec) (stream : List UInt8) : Prop where
  head : 0 ≤ d.head
  le : d.head ≤ d.size
  size : d.size ≤ 256
  seg : d.segment.length = 256
  lt : d.head < 256
  stream : stream = (d.segment.take d.size.toNat).drop d.head.toNat ++ d.r.rest
  empty : d.head = d.size → d.head = 0 ∨ d.r.rest = []
  part : d.size < 256 → d.size ≠ 0 → d.r.rest = []
  plan : ∀ k ∈ d.r.plan, 256 ≤ k

theorem bufInv_fill {d : Dec} {stream : List UInt8} (h : BufInv d stream) :
    (stream = [] ∧ d.fill = .error .eof) ∨ ∃ d', d.fill = .ok d' ∧ BufInv d' stream ∧ d'.head < d'.size := by
  obtain ⟨h1, h2, h3, h4, h4', h5, h6, h6', h7⟩ := h
  unfold Dec.fill
  by_cases he : d.head = d.size
  · rw [if_pos he]
    have hnil : (d.segment.take d.size.toNat).drop d.head.toNat = [] := by
      rw [he]; simp
    rw [hnil, List.nil_append] at h5
    by_cases hr : d.r.rest = []
    · left
      have : d.r.read (256 - d.head.toNat) = none := by unfold Reader.read; rw [if_pos hr]
      rw [this]; exact ⟨by rw [h5, hr], rfl⟩
    · right
      have h0 : d.head = 0 := (h6 he).resolve_right hr
      have hs0 : d.size = 0 := by omega
      have hread : d.r.read (256 - d.head.toNat) = some (d.r.rest.take 256, ⟨d.r.rest.drop 256, d.r.plan.tail⟩) := by
        unfold Reader.read
        rw [if_neg hr, h0]
        cases hp : d.r.plan with
        | nil => rfl
        | cons k t =>
          have := h7 k (by simp [hp])
          have hm : min (256 - (0 : Int).toNat) k = 256 := by simp; omega
          simp only [hm, List.tail_cons]
      rw [hread]
      dsimp only
      have hl : (d.r.rest.take 256).length = min 256 d.r.rest.length := by simp
      refine ⟨_, rfl, ⟨?_, ?_, ?_, ?_, ?_, ?_, ?_, ?_, ?_⟩, ?_⟩
      · simp
      · simp; omega
      · simp [hs0]; omega
      · simp [h0, h4]; omega
      · simp
      · dsimp only
        rw [h5, h0, hs0]
        simp only [Int.toNat_zero, List.take_zero, List.nil_append, Int.zero_add, Int.toNat_natCast, List.drop_zero]
        rw [List.take_left' rfl, List.take_append_drop]
      · intro hh
        dsimp only at hh
        have : d.r.rest.length ≠ 0 := by simpa using hr
        omega
      · intro hlt _
        dsimp only at hlt ⊢
        rw [hs0] at hlt
        have : d.r.rest.length < 256 := by omega
        simp; omega
      · intro k hk
        exact h7 k (List.mem_of_mem_tail hk)
      · dsimp only
        have : d.r.rest.length ≠ 0 := by simpa using hr
        omega
  · right
    rw [if_neg he]
    exact ⟨d, rfl, ⟨h1, h2, h3, h4, h4', h5, h6, h6', h7⟩, by omega⟩

theorem bufInv_peek {d : Dec} {stream : List UInt8} (h : BufInv d stream) :
    (stream = [] ∧ d.peek = .error .eof) ∨ ∃ b t d', stream = b :: t ∧ d.peek = .ok (b, d') ∧ BufInv d' stream ∧ d'.head < d'.size ∧
      (BufInv { d' with head := d'.head + 1 } t ∨ d'.head + 1 = 256) ∧ d'.segment[d'.head.toNat]? = some b := by
  rcases bufInv_fill h with ⟨h1, h2⟩ | ⟨d', h1, h2, h3⟩
  · left; exact ⟨h1, by unfold Dec.peek; rw [h2]; rfl⟩
  · right
    obtain ⟨i1, i2, i3, i4, i4', i5, i6, i6', i7⟩ := id h2
    have hlt : d'.head.toNat < d'.segment.length := by omega
    have hgs := List.getElem?_eq_getElem hlt
    have hdrop : (d'.segment.take d'.size.toNat).drop d'.head.toNat =
        d'.segment[d'.head.toNat] :: (d'.segment.take d'.size.toNat).drop (d'.head.toNat + 1) := by
      have hlt2 : d'.head.toNat < (d'.segment.take d'.size.toNat).length := by simp; omega
      rw [List.drop_eq_getElem_cons hlt2]
      simp
    refine ⟨d'.segment[d'.head.toNat], (d'.segment.take d'.size.toNat).drop (d'.head.toNat + 1) ++ d'.r.rest, d', ?_, ?_, h2, h3, ?_, hgs⟩
    · rw [i5, hdrop]; rfl
    · unfold Dec.peek
      rw [h1]
      show (if d'.head < 0 then _ else _) = _
      rw [if_neg (by omega), hgs]
    · by_cases h256 : d'.head + 1 = 256
      · right; exact h256
      · left
        refine ⟨by dsimp only; omega, by dsimp only; omega, i3, i4, by dsimp only; omega, ?_, ?_, ?_, i7⟩
        · dsimp only
          have : (d'.head + 1).toNat = d'.head.toNat + 1 := by omega
          rw [this]
        · dsimp only
          intro hh
          right
          exact i6' (by omega) (by omega)
        · exact i6'

theorem bufInv_bytes (ops : List Bool) : ∀ {d : Dec} {stream : List UInt8}, BufInv d stream →
    d.bytes ops = match streamBytes stream ops with | some bs => .ok bs | none => .error .eof := by
  induction ops with
  | nil => intro d stream _; cases stream <;> rfl
  | cons op ops ih =>
    intro d stream h
    rcases bufInv_peek h with ⟨h1, h2⟩ | ⟨b, t, d', h1, h2, h3, h4, h5, h6⟩
    · subst h1
      cases op
      · simp only [Dec.bytes, h2, streamBytes]; rfl
      · simp only [Dec.bytes, Dec.scan, h2, streamBytes]; rfl
    · cases op
      · simp only [Dec.bytes, Bool.false_eq_true, if_false, h2]
        have := ih h3
        rw [h1]
        simp only [streamBytes, Bool.false_eq_true, if_false]
        rw [h1] at this
        show (d'.bytes ops >>= fun bs => Except.ok (b :: bs)) = _
        rw [this]
        cases streamBytes (b :: t) ops <;> rfl
      · have hscan : ∃ d'', d.scan = .ok (b, d'') ∧ BufInv d'' t := by
          unfold Dec.scan
          rw [h2]
          show ∃ d'', Except.ok (b, (if d'.head + 1 = 256 then _ else _)) = _ ∧ _
          by_cases h256 : d'.head + 1 = 256
          · rw [if_pos h256]
            refine ⟨_, rfl, ?_⟩
            obtain ⟨i1, i2, i3, i4, i4', i5, i6, i6', i7⟩ := h3
            refine ⟨by simp, by simp, by simp, i4, by simp, ?_, by simp, by simp, i7⟩
            dsimp only
            have hs : d'.size = 256 := by omega
            have hh : d'.head.toNat = 255 := by omega
            rw [h1, hs, hh] at i5
            have e256 : (256 : Int).toNat = 256 := rfl
            have htk : d'.segment.take 256 = d'.segment := by rw [List.take_of_length_le (by omega)]
            rw [e256, htk] at i5
            have hd : d'.segment.drop 255 = [d'.segment[255]'(by omega)] := by
              rw [List.drop_eq_getElem_cons (by omega), List.drop_of_length_le (by omega)]
            rw [hd] at i5
            have := (List.cons.inj i5).2
            simpa using this
          · rw [if_neg h256]
            exact ⟨_, rfl, h5.resolve_right h256⟩
        obtain ⟨d'', e1, e2⟩ := hscan
        simp only [Dec.bytes, if_true, e1]
        rw [h1]
        simp only [streamBytes, if_true]
        show (d''.bytes ops >>= fun bs => Except.ok (b :: bs)) = _
        rw [ih e2]
        cases streamBytes t ops <;> rfl

end Verif.Jrpc
