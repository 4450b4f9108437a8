import Verif.Grpc.GroupLemmas

/-! Properties C01–C08 (and C47) of api/grpc. Only the specification files and the model's entry points
occur in the statements. -/
namespace Verif.Grpc

/-! ### C01–C03 varints -/

/-- C01: whatever is already in the buffer, and whatever follows, the appended value is read back and
the cursor advances by exactly the bytes appended. -/
theorem varint_round_trip (buf rest : List UInt8) (v : UInt64) :
    ∃ enc, appendVarint buf v = buf ++ enc ∧
      consumeVarint (enc ++ rest) = (v, (enc.length : Int)) :=
  ⟨appendVarint [] v, appendVarint_append buf v, consume_append v rest⟩

example : consumeVarint (appendVarint [] 300 ++ [7, 8]) = (300, 2) := by decide

/-- C01: the encoding is the minimal base-128 representation of the number: a well formed varint with
that value, and no shorter well formed varint has it. -/
theorem varint_is_minimal (v : UInt64) :
    IsVarint (appendVarint [] v) ∧ leb (appendVarint [] v) = v.toNat ∧
      ∀ bs, IsVarint bs → leb bs = v.toNat → (appendVarint [] v).length ≤ bs.length := by
  have c := isVarint64_append v
  refine ⟨c.1, c.2.2.1, fun bs hb hv => ?_⟩
  have hl := leb_lt bs
  rw [hv] at hl
  have hpow : 128 ^ bs.length = 2 ^ (7 * bs.length) := by rw [Nat.pow_mul]
  rw [hpow] at hl
  have h1 := len64_bounds v _ hl
  have hb1 := (varint_index hb).1
  have h3 := len64_bounds v 64 v.toNat_lt
  rw [(canon_appendVarint v).size]
  unfold sizeVarint
  omega

/-- C02: the predicted size is the number of bytes appended, between 1 and 10. -/
theorem varint_size_exact (buf : List UInt8) (v : UInt64) :
    (appendVarint buf v).length = buf.length + sizeVarint v ∧ 1 ≤ sizeVarint v ∧ sizeVarint v ≤ 10 := by
  have c := canon_appendVarint v
  exact ⟨appendVarint_length buf v, by rw [← c.size]; exact c.len.1, by rw [← c.size]; exact c.len.2⟩

example : sizeVarint 18446744073709551615 = 10 ∧ sizeVarint 0 = 1 := by decide

/-- C03: success, exactly when the input starts with a varint that fits 64 bits; the value is the
base-128 value of the bytes consumed. -/
theorem varint_accepts_iff (b : List UInt8) (v : UInt64) (n : Nat) :
    consumeVarint b = (v, (n : Int)) ↔
      n ≤ b.length ∧ IsVarint64 (b.take n) v.toNat := by
  constructor
  · intro h
    have := consumeVarint_sound h (by omega)
    simpa using ⟨this.1, this.2.2⟩
  · rintro ⟨hn, h⟩
    have := consumeVarint_complete (rest := b.drop n) h
    rw [List.take_append_drop, List.length_take, Nat.min_eq_left hn] at this
    rw [this]; simp

/-- C03: truncation, exactly when the input ends before a terminating byte and before ten bytes. -/
theorem varint_truncated_iff (b : List UInt8) :
    (consumeVarint b).2 = errTruncated ↔ b.length < 10 ∧ ∀ x ∈ b, 128 ≤ x.toNat := by
  rcases consumeVarint_result b with ⟨e, h⟩ | ⟨e, h1, x, h2, _⟩ | ⟨k, h1, h2, ⟨x, hx, hlt, _⟩, hn, _⟩
  · rw [e]; simpa using h
  · rw [e]
    have : 9 < b.length := (List.getElem?_eq_some_iff.mp h2).1
    constructor
    · intro h; exact absurd h (by decide)
    · rintro ⟨h, _⟩; omega
  · constructor
    · intro h; rw [hn] at h; simp [errTruncated] at h; omega
    · rintro ⟨_, h⟩
      have := h x (List.mem_of_getElem? hx); omega

/-- C03: overflow, exactly when the first nine bytes all continue and the tenth exceeds one. -/
theorem varint_overflow_iff (b : List UInt8) :
    (consumeVarint b).2 = errOverflow ↔
      (∀ j < 9, ∃ x, b[j]? = some x ∧ 128 ≤ x.toNat) ∧ ∃ x, b[9]? = some x ∧ 2 ≤ x.toNat := by
  rcases consumeVarint_result b with ⟨e, h, _⟩ | ⟨e, h1, h2⟩ | ⟨k, h1, h2, ⟨x, hx, hlt, h9⟩, hn, _⟩
  · rw [e]
    constructor
    · intro h; exact absurd h (by decide)
    · rintro ⟨_, x, hx, _⟩
      have := (List.getElem?_eq_some_iff.mp hx).1; omega
  · rw [e]; exact ⟨fun _ => ⟨h1, h2⟩, fun _ => rfl⟩
  · constructor
    · intro h; rw [hn] at h; simp [errOverflow] at h; omega
    · rintro ⟨h, y, hy, hy2⟩
      by_cases hk : k = 9
      · subst hk; rw [hx] at hy; cases hy; have := h9 rfl; omega
      · obtain ⟨z, hz, hz2⟩ := h k (by omega)
        rw [hx] at hz; cases hz; omega

/-- C03: those are the only outcomes, and no outcome claims more bytes than there are. -/
theorem varint_total (b : List UInt8) :
    (consumeVarint b).2 = errTruncated ∨ (consumeVarint b).2 = errOverflow ∨
      (1 ≤ (consumeVarint b).2 ∧ (consumeVarint b).2 ≤ b.length ∧ (consumeVarint b).2 ≤ 10) := by
  rcases consumeVarint_result b with ⟨e, _⟩ | ⟨e, _⟩ | ⟨k, h1, _, _, hn, _⟩
  · left; rw [e]
  · right; left; rw [e]
  · right; right; exact ⟨by omega, consumeVarint_le b, by omega⟩

example : consumeVarint [0x80, 0x80] = (0, errTruncated) ∧
    consumeVarint [255,255,255,255,255,255,255,255,255,2] = (0, errOverflow) ∧
    consumeVarint [0x80, 0x00, 9] = (0, 2) := by decide

/-! ### C04 zig-zag -/

/-- C04: the encoding is the documented numbering of the integers. -/
theorem zigzag_encode_value (x : BitVec 64) :
    (encodeZigZag x).toNat = if 0 ≤ x.toInt then (2 * x.toInt).toNat else (-2 * x.toInt - 1).toNat :=
  encodeZigZag_toNat x

/-- C04: decoding undoes encoding. -/
theorem zigzag_decode_encode (x : BitVec 64) : decodeZigZag (encodeZigZag x) = x := decode_encodeZigZag x

/-- C04: encoding undoes decoding. -/
theorem zigzag_encode_decode (x : BitVec 64) : encodeZigZag (decodeZigZag x) = x := encode_decodeZigZag x

/-- C04: numbers of smaller magnitude get smaller codes. -/
theorem zigzag_ordered (x y : BitVec 64) (h : x.toInt.natAbs < y.toInt.natAbs) :
    (encodeZigZag x).toNat < (encodeZigZag y).toNat := by
  rw [encodeZigZag_toNat, encodeZigZag_toNat]
  unfold zigzag
  split <;> split <;> omega

example : encodeZigZag (-3) = 5 ∧ decodeZigZag 5 = -3 ∧ encodeZigZag 3 = 6 := by decide

/-- C04: booleans survive the varint encoding. -/
theorem bool_round_trip (x : Bool) : decodeBool (encodeBool x) = x := by cases x <;> decide

/-! ### C05 tags -/

/-- C05: every valid field number with every three-bit wire type survives. -/
theorem tag_round_trip (num : Nat) (typ : WireType) (h1 : 1 ≤ num) (h2 : num < 2 ^ 29)
    (h3 : typ.toNat < 8) (buf rest : List UInt8) :
    ∃ enc, appendTag buf num typ = buf ++ enc ∧ enc.length = sizeTag num ∧
      consumeTag (enc ++ rest) = ((num : Int), typ, (enc.length : Int)) := by
  refine ⟨appendTag [] num typ, appendVarint_append buf _, appendTag_length num typ h1 (by omega), ?_⟩
  rw [consumeTag_complete (isTag_append h1 (by omega) h3)]
  simp

/-- C05: different fields have different tags. -/
theorem tag_injective (n n' : Nat) (t t' : WireType) (hn : n < 2 ^ 29) (hn' : n' < 2 ^ 29)
    (ht : t.toNat < 8) (ht' : t'.toNat < 8) (h : encodeTag n t = encodeTag n' t') : n = n' ∧ t = t' := by
  have := congrArg UInt64.toNat h
  rw [encodeTag_toNat _ _ (by omega), encodeTag_toNat _ _ (by omega)] at this
  refine ⟨by omega, UInt8.toNat_inj.mp (by omega)⟩

/-- C05: the parser accepts exactly the tags of the wire format; in particular the number is positive. -/
theorem tag_accepts_iff (b : List UInt8) (num : Int) (typ : WireType) (n : Nat) :
    consumeTag b = (num, typ, (n : Int)) ↔
      n ≤ b.length ∧ 1 ≤ num ∧ IsTag (b.take n) num.toNat typ.toNat := by
  constructor
  · intro h
    obtain ⟨h1, _, h3, h4⟩ := consumeTag_sound h (by omega)
    have := h4.2.2.1
    exact ⟨by simpa using h1, by omega, by simpa using h4⟩
  · rintro ⟨h1, h2, h3⟩
    have := consumeTag_complete (rest := b.drop n) h3
    rw [List.take_append_drop, List.length_take, Nat.min_eq_left h1] at this
    rw [this]
    simp; omega

example : consumeTag (appendTag [] 1000 typeBytes ++ [1]) = (1000, typeBytes, 2) := by decide
example : consumeTag [0] = (0, 0, errFieldNumber) := by decide

/-! ### C06 fixed-width and length-prefixed values -/

/-- C06: fixed32. -/
theorem fixed32_round_trip (buf rest : List UInt8) (v : UInt32) :
    ∃ enc, appendFixed32 buf v = buf ++ enc ∧ enc.length = 4 ∧ le256 enc = v.toNat ∧
      consumeFixed32 (enc ++ rest) = (v, 4) := by
  refine ⟨appendFixed32 [] v, rfl, rfl, appendFixed32_val v, ?_⟩
  refine Prod.ext (UInt32.toNat_inj.mp ?_) ?_
  · have := appendFixed32_val v
    simp only [appendFixed32, List.nil_append, List.cons_append] at this ⊢
    rw [consumeFixed32_val, this]
  · simp [consumeFixed32_len, appendFixed32]

/-- C06: fixed64. -/
theorem fixed64_round_trip (buf rest : List UInt8) (v : UInt64) :
    ∃ enc, appendFixed64 buf v = buf ++ enc ∧ enc.length = 8 ∧ le256 enc = v.toNat ∧
      consumeFixed64 (enc ++ rest) = (v, 8) := by
  refine ⟨appendFixed64 [] v, rfl, rfl, appendFixed64_val v, ?_⟩
  refine Prod.ext (UInt64.toNat_inj.mp ?_) ?_
  · have := appendFixed64_val v
    simp only [appendFixed64, List.nil_append, List.cons_append] at this ⊢
    rw [consumeFixed64_val, this]
  · simp [consumeFixed64_len, appendFixed64]

/-- C06: fixed-width reads succeed exactly when enough bytes remain. -/
theorem fixed_truncated_iff (b : List UInt8) :
    ((consumeFixed32 b).2 = errTruncated ↔ b.length < 4) ∧
    ((consumeFixed64 b).2 = errTruncated ↔ b.length < 8) := by
  rw [consumeFixed32_len, consumeFixed64_len]
  constructor <;> split <;> simp [*] <;> decide

/-- C06: byte strings (and Go strings, which share the code). Slices longer than 2^64 bytes do not exist. -/
theorem bytes_round_trip (buf rest v : List UInt8) (h : v.length < 2 ^ 64) :
    ∃ enc, appendBytes buf v = buf ++ enc ∧ enc.length = sizeBytes v.length ∧
      consumeBytes (enc ++ rest) = (v, (enc.length : Int)) := by
  have l := isVarint64_append (UInt64.ofNat v.length)
  rw [UInt64.toNat_ofNat', Nat.mod_eq_of_lt h] at l
  refine ⟨appendVarint [] (UInt64.ofNat v.length) ++ v, ?_, ?_, ?_⟩
  · rw [appendBytes, appendVarint_append, List.append_assoc]
  · rw [List.length_append, appendVarint_length]; simp [sizeBytes]
  · rw [consumeBytes_complete l]; simp

/-- C06: reading a byte string succeeds exactly when the input starts with a length prefix followed by
that many bytes; otherwise the result is a negative error code. -/
theorem bytes_accepts_iff (b v : List UInt8) (n : Nat) :
    consumeBytes b = (v, (n : Int)) ↔
      n ≤ b.length ∧ ∃ pre, b.take n = pre ++ v ∧ IsVarint64 pre v.length := by
  constructor
  · intro h
    have := consumeBytes_sound h (by omega)
    simpa using this
  · rintro ⟨hn, pre, e, hp⟩
    have := consumeBytes_complete (rest := b.drop n) hp
    rw [← e, List.take_append_drop] at this
    rw [this]
    have hl := congrArg List.length e
    rw [List.length_take, Nat.min_eq_left hn, List.length_append] at hl
    rw [hl]

/-- C06: a length prefix larger than the remaining input is reported as truncated. -/
theorem bytes_long_prefix_truncated (pre rest : List UInt8) (m : Nat) (hp : IsVarint64 pre m)
    (h : rest.length < m) : consumeBytes (pre ++ rest) = ([], errTruncated) := by
  unfold consumeBytes
  rw [consumeVarint_complete hp]
  have : (UInt64.ofNat m).toNat = m := by rw [UInt64.toNat_ofNat']; exact Nat.mod_eq_of_lt hp.2.2.2
  dsimp only
  rw [if_neg (by omega), if_pos (by rw [this]; simpa using h)]

example : consumeBytes (appendBytes [] [1, 2, 3] ++ [9]) = ([1, 2, 3], 4) := by decide
example : consumeBytes [5, 1, 2] = ([], errTruncated) := by decide

/-! ### C07 skipping -/

/-- C07: skipping a value accepts exactly the values of the wire grammar whose groups are nested at most
10001 deep (`depth` 10000 down to 0), and returns their exact length. Every group in such a value is
closed by an end marker carrying its own number (see `IsGroup`). -/
theorem skip_accepts_iff (num : Nat) (typ : WireType) (b : List UInt8) (n : Nat) :
    consumeFieldValue num typ b = n ↔
      n ≤ b.length ∧ IsValue 10001 num typ.toNat (b.take n) := by
  unfold consumeFieldValue
  constructor
  · intro h
    have := (skip_sound b.length).1 b (Nat.le_refl _) num typ defaultRecursionLimit n (by omega) h (by omega)
    simpa [defaultRecursionLimit] using this
  · rintro ⟨h1, h2⟩
    have := skip_complete h2 (b.drop n)
    rw [List.take_append_drop, List.length_take, Nat.min_eq_left h1] at this
    simpa [defaultRecursionLimit] using this

/-- C07: the returned length never exceeds the input. -/
theorem skip_in_bounds (num : Nat) (typ : WireType) (b : List UInt8) :
    consumeFieldValue num typ b ≤ b.length := by
  by_cases h : 0 ≤ consumeFieldValue num typ b
  · have := (skip_accepts_iff num typ b (consumeFieldValue num typ b).toNat).mp (by omega)
    omega
  · omega

/-- C07: skipping a whole field accepts exactly a tag followed by one value of that field. -/
theorem skip_field_accepts (b : List UInt8) (num : Int) (typ : WireType) (n : Nat)
    (h : consumeField b = (num, typ, (n : Int))) :
    n ≤ b.length ∧ ∃ t v, b.take n = t ++ v ∧ IsTag t num.toNat typ.toNat ∧
      IsValue 10001 num.toNat typ.toNat v := by
  unfold consumeField at h
  rcases hc : consumeTag b with ⟨tn, tt, tl⟩
  rw [hc] at h
  dsimp only at h
  split at h
  · rename_i hneg; simp at h; omega
  · rename_i hpos
    obtain ⟨k1, k2, k3, k4⟩ := consumeTag_sound hc (by omega)
    split at h
    · rename_i hneg; simp at h; omega
    · rename_i hpos2
      simp only [Prod.mk.injEq] at h
      obtain ⟨rfl, rfl, h⟩ := h
      have hs := (skip_accepts_iff tn.toNat tt (b.drop tl.toNat)
        (consumeFieldValue tn tt (b.drop tl.toNat)).toNat).mp (by
          rw [Int.toNat_of_nonneg k3]; omega)
      rw [List.length_drop] at hs
      refine ⟨by omega, b.take tl.toNat, _, ?_, k4, hs.2⟩
      rw [← List.take_add]
      congr 1
      omega

/-- Two nested groups: 1{ 2{ } } — a value that the skipper accepts. -/
example : consumeFieldValue 1 typeStartGroup [0x13, 0x14, 0x0c, 0xff] = 3 := by
  have := (skip_accepts_iff 1 typeStartGroup [0x13, 0x14, 0x0c, 0xff] 3).mpr ⟨by decide, by
    have t2 : IsTag [0x13] 2 3 := ⟨⟨⟨[], 0x13, rfl, by simp, by decide⟩, by decide, by decide, by decide⟩, by decide, by decide, by decide⟩
    have e2 : IsTag [0x14] 2 4 := ⟨⟨⟨[], 0x14, rfl, by simp, by decide⟩, by decide, by decide, by decide⟩, by decide, by decide, by decide⟩
    have e1 : IsTag [0x0c] 1 4 := ⟨⟨⟨[], 0x0c, rfl, by simp, by decide⟩, by decide, by decide, by decide⟩, by decide, by decide, by decide⟩
    exact IsValue.group (d := 10000) (IsGroup.field (t := [0x13]) (v := [0x14]) (rest := [0x0c]) t2
      (IsValue.group (d := 9999) (IsGroup.done e2)) (IsGroup.done e1))⟩
  exact this

/-- C07: a group closed by a marker of another field is refused. -/
theorem skip_refuses_wrong_end (num m : Nat) (t rest : List UInt8) (h : IsTag t m 4) (hne : num ≠ m) :
    consumeFieldValue num typeStartGroup (t ++ rest) = errEndGroup := by
  unfold consumeFieldValue
  rw [consumeFieldValueD, groupLoop]
  rw [consumeTag_complete h]
  simp [typeVarint, typeFixed32, typeFixed64, typeBytes, typeStartGroup, defaultRecursionLimit, typeEndGroup]
  omega

/-- The opening markers of `k` groups of field 1, one inside the other. -/
def opens : Nat → List UInt8
  | 0 => []
  | k + 1 => 0x0b :: opens k

theorem skip_depth_aux (k : Nat) (rest : List UInt8) :
    consumeFieldValueD 1 typeStartGroup (opens k ++ rest) ((k : Int) - 1) = errRecursionDepth := by
  have t1 : IsTag [0x0b] 1 3 := ⟨⟨⟨[], 0x0b, rfl, by simp, by decide⟩, by decide, by decide, by decide⟩, by decide, by decide, by decide⟩
  induction k with
  | zero =>
    rw [consumeFieldValueD]; simp [typeVarint, typeFixed32, typeFixed64, typeBytes, typeStartGroup]
  | succ k ih =>
    rw [consumeFieldValueD, groupLoop]
    have := consumeTag_complete (rest := opens k ++ rest) t1
    have e : opens (k + 1) ++ rest = [0x0b] ++ (opens k ++ rest) := rfl
    rw [e, this]
    have e2 : ((k + 1 : Nat) : Int) - 1 - 1 = (k : Int) - 1 := by omega
    have e3 : UInt8.ofNat 3 = typeStartGroup := rfl
    simp only [e3, e2]
    simp only [show (((1 : Nat) : Int)) = 1 from rfl]
    have e4 : ([0x0b] ++ (opens k ++ rest)).drop ([0x0b] : List UInt8).length = opens k ++ rest := rfl
    simp only [Int.toNat_natCast, e4, ih]
    simp [typeVarint, typeFixed32, typeFixed64, typeBytes, typeStartGroup, typeEndGroup, errRecursionDepth]

/-- C07: nesting beyond the limit is refused, whatever follows. -/
theorem skip_depth_refused (rest : List UInt8) :
    consumeFieldValue 1 typeStartGroup (opens 10001 ++ rest) = errRecursionDepth := by
  have := skip_depth_aux 10001 rest
  simpa [consumeFieldValue, defaultRecursionLimit] using this

/-! ### C47 reading a group -/

/-- C47: reading a group returns its contents without the end marker, even when that marker is a padded
varint, never slices out of bounds, and reports the length including the marker. -/
theorem group_body (num : Nat) (body t rest : List UInt8) (h : IsGroup 10000 num (body ++ t))
    (ht : IsTag t num 4) :
    consumeGroup num (body ++ t ++ rest) = some (body, ((body.length + t.length : Nat) : Int)) := by
  have hs := (skip_accepts_iff num typeStartGroup (body ++ t ++ rest) (body.length + t.length)).mpr
    ⟨by simp, by
      rw [← List.length_append, List.take_left]; exact .group h⟩
  unfold consumeGroup
  dsimp only
  rw [hs, if_neg (by omega), Int.toNat_natCast, ← List.length_append, List.take_left]
  obtain ⟨h1, h2⟩ := strip_tag (body := body) ht
  rw [if_neg (by omega), h2]

/-- C47: no input makes the reader slice out of bounds. -/
theorem group_never_panics (num : Nat) (b : List UInt8) : consumeGroup num b ≠ none := by
  unfold consumeGroup
  dsimp only
  split
  · simp
  · rename_i hn
    have h := (skip_accepts_iff num typeStartGroup b (consumeFieldValue num typeStartGroup b).toNat).mp (by omega)
    generalize (consumeFieldValue num typeStartGroup b).toNat = n at h
    have hv := h.2
    generalize b.take n = bs at hv
    have hg : IsGroup 10000 num bs := by
      cases hty : typeStartGroup.toNat with
      | zero => exact absurd hty (by decide)
      | succ k =>
        have : typeStartGroup.toNat = 3 := rfl
        rw [this] at hv
        cases hv with
        | group h => exact h
    obtain ⟨body, t, e, ht⟩ := group_split hg
    have := strip_tag (body := body) ht
    rw [e, if_neg (by omega)]
    simp

example : consumeGroup 1 ([] ++ [0x8c, 0x80, 0x00] ++ [7]) = some ([], 3) := by
  have e1 : IsTag [0x8c, 0x80, 0x00] 1 4 :=
    ⟨⟨⟨[0x8c, 0x80], 0x00, rfl, by simp, by decide⟩, by decide, by decide, by decide⟩, by decide, by decide, by decide⟩
  exact group_body 1 [] _ [7] (.done e1) e1

/-! ### C08 the encoder -/

/-- C08, restricted to values in which every map has exactly one entry: the encoder's output parses
completely under the wire grammar and the parsed fields are the picture of the value. The size bound
says that the message is shorter than 2^64 bytes. -/
theorem encoder_faithful_partial (n : Nat) (v : Val) (h1 : 1 ≤ n) (h2 : n < 2 ^ 29) (he : Encodable v)
    (hm : SingletonMaps v) (hs : (sizeof n v).1 + (sizeof n v).2 < 2 ^ 64) : EncodesFaithfully n v := by
  obtain ⟨bs, fs, e, _, _, _, p, r⟩ := enc_ok n h1 h2 v he hm hs
  exact ⟨bs, fs, e, p, r⟩

/-- C08: the predicted size is the number of bytes written (same restriction). -/
theorem encoder_size_exact_partial (n : Nat) (v : Val) (h1 : 1 ≤ n) (h2 : n < 2 ^ 29) (he : Encodable v)
    (hm : SingletonMaps v) (hs : (sizeof n v).1 + (sizeof n v).2 < 2 ^ 64) :
    ∃ bs, encode n v = .ok bs ∧ (bs.length : Int) = (sizeof n v).1 + (sizeof n v).2 := by
  obtain ⟨bs, fs, e, l, _⟩ := enc_ok n h1 h2 v he hm hs
  exact ⟨bs, e, l⟩

/-- C08 for `Encode` itself: a value handed to the encoder is written under field number 1 and read back
as its own picture (same restriction). -/
theorem encoder_top_partial (v : Val) (he : Encodable v) (hm : SingletonMaps v)
    (hs : (sizeof 1 v).1 + (sizeof 1 v).2 < 2 ^ 64) : WritesFaithfully v :=
  encoder_faithful_partial 1 v (by decide) (by decide) he hm hs

/-- C08, maps with several entries: a map that is not nested inside another message is written
faithfully when it has at least one entry and all entries take the same number of bytes. -/
theorem encoder_uniform_map_partial (kvs : List (Val × Val)) (hne : kvs ≠ []) (he : EncodableE kvs)
    (size : Nat) (hsz : kvs.length * size < 2 ^ 64)
    (hk : ∀ kv ∈ kvs, SingletonMaps kv.1 ∧ SingletonMaps kv.2 ∧
      (sizeof 1 kv.1).1 + (sizeof 1 kv.1).2 + (sizeof 2 kv.2).1 + (sizeof 2 kv.2).2 = size) :
    WritesFaithfully (.map kvs) := by
  have hl : 0 < kvs.length := List.length_pos_iff.mpr hne
  have hk' : ∀ kv ∈ kvs, sizeofEntries [kv] = size := by
    intro kv h; have := (hk kv h).2.2; obtain ⟨k, v⟩ := kv; simp only [sizeofEntries] at this ⊢; omega
  have e := sizeofEntries_uniform size kvs hk'
  have e2 : (sizeofEntries kvs).toNat / kvs.length = size := by
    rw [e, show ((kvs.length : Int) * (size : Int)).toNat = kvs.length * size from by
      rw [← Int.natCast_mul, Int.toNat_natCast]]
    exact Nat.mul_div_cancel_left _ hl
  have hs2 : size < 2 ^ 64 := Nat.lt_of_le_of_lt (Nat.le_mul_of_pos_left _ hl) hsz
  obtain ⟨bs, fs, b1, b2, b3⟩ := encM_ok 1 (by decide) (by decide) size hs2 kvs he
    (fun kv h => ⟨(hk kv h).1, (hk kv h).2.1, hk' kv h⟩)
  refine ⟨bs, fs, ?_, b2, by rw [Rep]; exact b3⟩
  unfold encodeTop
  rw [encode, if_neg (by omega), e2, b1]

/-- {1: "x", 2: "y"} meets the hypotheses. -/
example : WritesFaithfully (.map [(.int 1, .str [120]), (.int 2, .str [121])]) :=
  encoder_uniform_map_partial _ (by simp) (by simp [EncodableE, Encodable]) 5 (by decide)
    (by
      intro kv h
      simp only [List.mem_cons, List.not_mem_nil, or_false] at h
      rcases h with rfl | rfl <;> refine ⟨by simp [SingletonMaps], by simp [SingletonMaps], by decide⟩)

example : encodeTop (.map [(.int 1, .str [120]), (.int 2, .str [121])]) =
    .ok [0x0a, 5, 0x08, 1, 0x12, 1, 120, 0x0a, 5, 0x08, 2, 0x12, 1, 121] := by rfl

/-- C08 fails for a map of two equal-sized entries inside a message: the message's length prefix counts
one entry header where two are written. -/
theorem encoder_nested_map_fails :
    Encodable (.struct [.map [(.int 1, .int 1), (.int 2, .int 1)]]) ∧
    ¬ WritesFaithfully (.struct [.map [(.int 1, .int 1), (.int 2, .int 1)]]) := by
  refine ⟨by simp [Encodable, EncodableE, EncodableL], ?_⟩
  rintro ⟨bs, fs, he, hp, _⟩
  have e : encodeTop (.struct [.map [(.int 1, .int 1), (.int 2, .int 1)]]) =
      .ok [0x0a, 10, 0x0a, 4, 8, 1, 16, 1, 0x0a, 4, 8, 2, 16, 1] := by rfl
  rw [e] at he
  cases he
  have := readFields_of_parses hp 100 (by decide)
  rw [show readFields 100 [0x0a, 10, 0x0a, 4, 8, 1, 16, 1, 0x0a, 4, 8, 2, 16, 1] =
    some [(1, .bytes [0x0a, 4, 8, 1, 16, 1, 0x0a, 4, 8, 2]), (2, .varint 1)] from by decide +kernel] at this
  cases this
  rename_i r
  rw [Rep] at r
  obtain ⟨_, _, h, _⟩ := r
  cases h

/-- C08: a value of a kind the encoder does not list is refused. -/
theorem encoder_unsupported : encodeTop .other = .error .unsupported := by
  unfold encodeTop; rw [encode]

/-- C08: a byte string has at most one reading, so "the fields a parser recovers" is well defined. -/
theorem wire_unambiguous {b : List UInt8} {fs fs'} (h : Parses b fs) (h' : Parses b fs') : fs = fs' :=
  parses_unique h h'

/-- A nested message with a one-entry map: struct{ "hi", [7, 9], {1: "x"}, nil, struct{true} }. -/
def sampleMessage : Val :=
  .struct [.str [104, 105], .slice [.int 7, .uint 9], .map [(.int 1, .str [120])], .nil,
    .ptr (.struct [.bool true, .f32 5])]

example : EncodesFaithfully 1 sampleMessage :=
  encoder_faithful_partial 1 sampleMessage (by decide) (by decide)
    (by simp [sampleMessage, Encodable, EncodableL, EncodableE])
    (by simp [sampleMessage, SingletonMaps, SingletonMapsL]) (by decide)

example : encode 1 (.struct [.str [104, 105], .int 300]) =
    .ok [0x0a, 7, 0x0a, 2, 104, 105, 0x10, 0xac, 0x02] := by rfl

/-- C08 fails for maps whose entries differ in size: every entry gets the average length as its prefix,
so {"a": 1, "bb": 1} does not even parse. -/
theorem encoder_faithful_fails :
    Encodable (.map [(.str [97], .int 1), (.str [98, 98], .int 1)]) ∧
    ¬ EncodesFaithfully 1 (.map [(.str [97], .int 1), (.str [98, 98], .int 1)]) := by
  refine ⟨by simp [Encodable, EncodableE], ?_⟩
  rintro ⟨bs, fs, he, hp, _⟩
  have e : encode 1 (.map [(.str [97], .int 1), (.str [98, 98], .int 1)]) =
      .ok [0x0a, 5, 0x0a, 1, 97, 0x10, 1, 0x0a, 5, 0x0a, 2, 98, 98, 0x10, 1] := by rfl
  rw [e] at he
  cases he
  have := readFields_of_parses hp 100 (by decide)
  rw [show readFields 100 [0x0a, 5, 0x0a, 1, 97, 0x10, 1, 0x0a, 5, 0x0a, 2, 98, 98, 0x10, 1] = none from by
    decide +kernel] at this
  cases this

/-- C08 fails for empty maps: the encoder divides by the number of entries. -/
theorem encoder_empty_map_fails (n : Nat) : encode n (.map []) = .error .divideByZero := by
  rw [encode]; simp

end Verif.Grpc
