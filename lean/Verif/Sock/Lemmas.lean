import Verif.Sock.Spec

namespace Verif.Sock

theorem bytesBE_length (n v : Nat) : (bytesBE n v).length = n := by
  induction n with
  | zero => rfl
  | succ n ih => rw [bytesBE, List.length_cons, ih]

theorem foldl_bytesBE (n v : Nat) : ∀ acc, (bytesBE n v).foldl (fun n x => n * 256 + x.toNat) acc = acc * 256 ^ n + v % 256 ^ n := by
  induction n with
  | zero => intro acc; simp [bytesBE, Nat.mod_one]
  | succ n ih =>
    intro acc
    rw [bytesBE, List.foldl_cons, ih]
    have h1 : (UInt8.ofNat (v / 256 ^ n)).toNat = v / 256 ^ n % 256 := by simp
    rw [h1, Nat.add_mul, Nat.pow_succ]
    have h2 : v % (256 ^ n * 256) = v % 256 ^ n + 256 ^ n * (v / 256 ^ n % 256) := Nat.mod_mul
    rw [h2, Nat.mul_assoc, Nat.mul_comm 256 (256 ^ n), Nat.mul_comm (v / 256 ^ n % 256)]
    omega

theorem bigEndian_bytesBE (n v : Nat) (h : v < 256 ^ n) : bigEndian (bytesBE n v) = v := by
  rw [bigEndian, foldl_bytesBE, Nat.mod_eq_of_lt h]; omega

theorem readN_append (a b : Bytes) : readN a.length (a ++ b) = some (a, b) := by
  rw [readN, if_pos (by simp)]; simp

theorem low7 : ∀ (m : Bool) (l : Fin 128), UInt8.ofNat (l.val + if m then 128 else 0) &&& 0x7F = UInt8.ofNat l.val := by decide +kernel
theorem bit8 : ∀ (m : Bool) (l : Fin 128), (UInt8.ofNat (l.val + if m then 128 else 0) &&& 0x80 ≠ 0) ↔ m = true := by decide +kernel
theorem low4 : ∀ (m : Bool) (l : Fin 16), UInt8.ofNat ((if m then 128 else 0) + l.val) &&& 0x0F = UInt8.ofNat l.val := by decide +kernel
theorem op4 : ∀ (l l' : Fin 16), UInt8.ofNat l.val = UInt8.ofNat l'.val ↔ l = l' := by decide +kernel
theorem ofNat128 : ∀ l : Fin 128, (UInt8.ofNat l.val).toNat = l.val := by decide +kernel

/-- The length byte and the rest of the length of a conforming header. -/
theorem rfcLength_cons (m : Bool) (len : Nat) : ∃ (l : Fin 128) (more : Bytes), rfcLength m len = UInt8.ofNat (l.val + if m then 128 else 0) :: more ∧
    ((len < 126 ∧ l.val = len ∧ more = []) ∨ (126 ≤ len ∧ len < 2 ^ 16 ∧ l.val = 126 ∧ more = bytesBE 2 len) ∨ (2 ^ 16 ≤ len ∧ l.val = 127 ∧ more = bytesBE 8 len)) := by
  unfold rfcLength
  by_cases h1 : len < 126
  · exact ⟨⟨len, by omega⟩, [], by simp [h1], .inl ⟨h1, rfl, rfl⟩⟩
  · by_cases h2 : len < 2 ^ 16
    · exact ⟨126, bytesBE 2 len, by simp only [h1, h2, if_true, if_false]; rfl, .inr (.inl ⟨by omega, h2, rfl, rfl⟩)⟩
    · exact ⟨127, bytesBE 8 len, by simp only [h1, h2, if_false]; rfl, .inr (.inr ⟨by omega, rfl, rfl⟩)⟩

/-- The reader's length is the length written. -/
theorem readSize_rfc (m : Bool) (len : Nat) (h : len < 2 ^ 63) (rest : Bytes) : ∃ (c1 : UInt8) (more : Bytes),
    rfcLength m len = c1 :: more ∧ readSize c1 (more ++ rest) = some (len, rest) ∧ ((c1 &&& 0x80 ≠ 0) ↔ m = true) := by
  obtain ⟨l, more, h1, h2⟩ := rfcLength_cons m len
  refine ⟨_, more, h1, ?_, bit8 m l⟩
  unfold readSize
  rw [low7]
  have i126 : ∀ l : Fin 128, UInt8.ofNat l.val = 126 ↔ l.val = 126 := by decide +kernel
  have i127 : ∀ l : Fin 128, UInt8.ofNat l.val = 127 ↔ l.val = 127 := by decide +kernel
  rcases h2 with ⟨a, b, rfl⟩ | ⟨a, b, c, rfl⟩ | ⟨a, b, rfl⟩
  · rw [if_neg (by rw [i126]; omega), if_neg (by rw [i127]; omega), ofNat128, b]; rfl
  · rw [if_pos ((i126 l).mpr c)]
    have := readN_append (bytesBE 2 len) rest
    rw [bytesBE_length] at this
    rw [this, Option.map_some, bigEndian_bytesBE 2 len (by omega)]
  · rw [if_neg (by rw [i126]; omega), if_pos ((i127 l).mpr b)]
    have := readN_append (bytesBE 8 len) rest
    rw [bytesBE_length] at this
    rw [this, Option.map_some, bigEndian_bytesBE 8 len (by omega)]

/-- The number the reader makes of a key. -/
def keyNumber (k : Option (UInt8 × UInt8 × UInt8 × UInt8)) : Nat :=
  match k with
  | none => 0
  | some k => bigEndian (keyBytes k)

/-- The payload as it is on the wire. -/
def Frame.masked (f : Frame) : Bytes :=
  match f.key with
  | none => f.payload
  | some k => applyMask k f.payload

theorem masked_length (f : Frame) : f.masked.length = f.payload.length := by
  unfold Frame.masked; split <;> simp [applyMask]

/-- The reader gets through the header of a conforming frame. -/
theorem readFrame_wire (side : Side) (recv : Bool) (f : Frame) (h : f.payload.length < 2 ^ 63) (rest : Bytes) :
    readFrame side recv (f.wire ++ rest) =
      handle side recv (UInt8.ofNat ((if f.fin then 128 else 0) + f.opcode.val)) (keyNumber f.key) f.payload.length (f.masked ++ rest) := by
  unfold Frame.wire Frame.masked
  cases hk : f.key with
  | none =>
    obtain ⟨c1, more, h1, h2, h3⟩ := readSize_rfc false f.payload.length h (f.payload ++ rest)
    simp only [Option.isSome_none, h1, List.cons_append, List.append_assoc, readFrame, h2, readKey]
    rw [if_neg (by rw [h3]; simp)]; rfl
  | some k =>
    obtain ⟨c1, more, h1, h2, h3⟩ := readSize_rfc true f.payload.length h (keyBytes k ++ (applyMask k f.payload ++ rest))
    simp only [Option.isSome_some, h1, List.cons_append, List.append_assoc, readFrame, h2, readKey]
    rw [if_pos (h3.mpr rfl)]
    have := readN_append (keyBytes k) (applyMask k f.payload ++ rest)
    rw [show (keyBytes k).length = 4 from rfl] at this
    rw [this]; rfl

/-- The octet the reader uses for position `i`. -/
theorem key_shift (k : UInt8 × UInt8 × UInt8 × UInt8) (i : Nat) :
    UInt8.ofNat (bigEndian (keyBytes k) >>> (8 * (i % 4))) = keyByte k (3 - i % 4) := by
  obtain ⟨a, b, c, d⟩ := k
  have ha := a.toNat_lt; have hb := b.toNat_lt; have hc := c.toNat_lt; have hd := d.toNat_lt
  have e : bigEndian (keyBytes (a, b, c, d)) = ((a.toNat * 256 + b.toNat) * 256 + c.toNat) * 256 + d.toNat := by simp [bigEndian, keyBytes]
  rw [e]
  have h4 : i % 4 = 0 ∨ i % 4 = 1 ∨ i % 4 = 2 ∨ i % 4 = 3 := by omega
  have fin : ∀ (n : Nat) (x : UInt8), n % 256 = x.toNat → UInt8.ofNat n = x := by
    intro n x h
    rw [← UInt8.toNat_inj, UInt8.toNat_ofNat', ← h]
  rcases h4 with h | h | h | h <;> rw [h] <;> apply fin <;> simp [keyByte, Nat.shiftRight_eq_div_pow] <;> omega

theorem unmask_none (b : Bytes) : ∀ i, unmaskFrom 0 i b = b := by
  induction b with
  | nil => intro i; rfl
  | cons x b ih => intro i; rw [unmaskFrom, ih]; simp

theorem mapIdx_getElem? {α β : Type} (f : Nat → α → β) (l : List α) (i : Nat) : (l.mapIdx f)[i]? = l[i]?.map (f i) := by simp

theorem unmask_get (key : Nat) (b : Bytes) : ∀ i (j : Nat), (unmaskFrom key i b)[j]? = b[j]?.map fun x => x ^^^ UInt8.ofNat (key >>> (8 * ((i + j) % 4))) := by
  induction b with
  | nil => intro i j; simp [unmaskFrom]
  | cons x b ih =>
    intro i j
    rw [unmaskFrom]
    cases j with
    | zero => simp
    | succ j => simp [ih, Nat.add_assoc, Nat.add_comm 1 j]

/-- Octet by octet, what the reader makes of a masked payload. -/
theorem unmasked_get (k : UInt8 × UInt8 × UInt8 × UInt8) (b : Bytes) (j : Nat) :
    (unmaskFrom (bigEndian (keyBytes k)) 0 (applyMask k b))[j]? = b[j]?.map fun x => (x ^^^ keyByte k j) ^^^ keyByte k (3 - j % 4) := by
  rw [unmask_get, applyMask, mapIdx_getElem?, Option.map_map]
  congr 1
  funext x
  simp only [Function.comp, Nat.zero_add, key_shift]

theorem xor_cancel (x a b : UInt8) : (x ^^^ a) ^^^ b = x ↔ a = b := by
  constructor
  · intro h
    have : a ^^^ b = 0 := by
      have h' := congrArg (x ^^^ ·) h
      simp only [UInt8.xor_assoc] at h'
      rw [← UInt8.xor_assoc x x, UInt8.xor_self, UInt8.zero_xor] at h'
      exact h'
    have h2 := congrArg (· ^^^ b) this
    simp only [UInt8.xor_assoc, UInt8.xor_self, UInt8.xor_zero, UInt8.zero_xor] at h2
    exact h2
  · rintro rfl; rw [UInt8.xor_assoc, UInt8.xor_self, UInt8.xor_zero]

/-- The reader recovers a masked payload exactly when the key reads the same backwards where it matters. -/
theorem unmasked_iff (k : UInt8 × UInt8 × UInt8 × UInt8) (b : Bytes) :
    unmaskFrom (bigEndian (keyBytes k)) 0 (applyMask k b) = b ↔ ∀ i < b.length, keyByte k i = keyByte k (3 - i % 4) := by
  constructor
  · intro h i hi
    have := unmasked_get k b i
    rw [h, List.getElem?_eq_getElem hi, Option.map_some, Option.some.injEq] at this
    exact (xor_cancel _ _ _).mp this.symm
  · intro h
    apply List.ext_getElem?
    intro j
    rw [unmasked_get]
    rcases Nat.lt_or_ge j b.length with hj | hj
    · rw [List.getElem?_eq_getElem hj, Option.map_some, (xor_cancel _ _ _).mpr (h j hj)]
    · rw [List.getElem?_eq_none hj]; rfl

theorem palindrome_all (k : UInt8 × UInt8 × UInt8 × UInt8) (h : k.1 = k.2.2.2 ∧ k.2.1 = k.2.2.1) (i : Nat) : keyByte k i = keyByte k (3 - i % 4) := by
  obtain ⟨a, b, c, d⟩ := k
  obtain ⟨h1, h2⟩ := h
  have h4 : i % 4 = 0 ∨ i % 4 = 1 ∨ i % 4 = 2 ∨ i % 4 = 3 := by omega
  rcases h4 with h | h | h | h <;> simp [keyByte, h] <;> simp_all

/-- The server's unmasking of a conforming frame with such a key. -/
theorem unmask_frame (f : Frame) (h : f.KeyPalindrome) : unmaskFrom (keyNumber f.key) 0 f.masked = f.payload := by
  unfold Frame.masked keyNumber
  cases hk : f.key with
  | none => exact unmask_none _ _
  | some k =>
    obtain ⟨a, b, c, d⟩ := k
    exact (unmasked_iff _ _).mpr (fun i _ => palindrome_all (a, b, c, d) (h a b c d hk) i)

theorem opcode_cases (f : Frame) (n : Fin 16) : (UInt8.ofNat ((if f.fin then 128 else 0) + f.opcode.val) &&& 0x0F = UInt8.ofNat n.val) ↔ f.opcode = n := by
  rw [low4, op4]

theorem handle_wire (side : Side) (f : Frame) (h : f.payload.length ≤ 2 ^ 48) (rest : Bytes) :
    handle side true (UInt8.ofNat ((if f.fin then 128 else 0) + f.opcode.val)) (keyNumber f.key) f.payload.length (f.masked ++ rest) =
      .next (if f.opcode = 1 then [.deliver (unmaskFrom (keyNumber f.key) 0 f.masked)] else if f.opcode = 9 then [.pong] else []) rest := by
  unfold handle handleText discard
  have e9 : (UInt8.ofNat ((if f.fin then 128 else 0) + f.opcode.val) &&& 0x0F = 0x9) ↔ f.opcode = 9 := opcode_cases f 9
  have e1 : (UInt8.ofNat ((if f.fin then 128 else 0) + f.opcode.val) &&& 0x0F = 0x1) ↔ f.opcode = 1 := opcode_cases f 1
  by_cases h9 : f.opcode = 9
  · rw [if_pos (e9.mpr h9), if_neg (by rw [h9]; decide), if_pos h9, ← masked_length, List.drop_left]
  · rw [if_neg (fun h => h9 (e9.mp h))]
    by_cases h1 : f.opcode = 1
    · rw [if_pos (e1.mpr h1), if_pos h1, if_neg (by simp), if_neg (by omega)]
      have := readN_append f.masked rest
      rw [masked_length] at this
      rw [this]; simp
    · rw [if_neg (fun h => h1 (e1.mp h)), if_neg h1, if_neg h9, ← masked_length, List.drop_left]

theorem readLoop_wires (side : Side) : ∀ (fs : List Frame) (n : Nat), (∀ f ∈ fs, f.payload.length ≤ 2 ^ 48) → fs.length ≤ n →
    (∀ f ∈ fs, f.KeyPalindrome) → readLoop side true n (wires fs) = (fs.flatMap meaning, false) := by
  intro fs
  induction fs with
  | nil =>
    intro n _ _ _
    cases n with
    | zero => rfl
    | succ n => rfl
  | cons f fs ih =>
    intro n hl hn hp
    cases n with
    | zero => simp at hn
    | succ n =>
      have hlf := hl f (by simp)
      rw [wires, readLoop, readFrame_wire side true f (by omega), handle_wire side f hlf]
      dsimp only
      rw [ih n (fun g hg => hl g (by simp [hg])) (by simpa using hn) (fun g hg => hp g (by simp [hg])), unmask_frame f (hp f (by simp))]
      rfl

theorem rfcLength_ne (m : Bool) (len : Nat) : 1 ≤ (rfcLength m len).length := by
  obtain ⟨l, more, h, _⟩ := rfcLength_cons m len
  rw [h]; simp

theorem wires_length (fs : List Frame) : fs.length ≤ (wires fs).length := by
  induction fs with
  | nil => exact Nat.le_refl _
  | cons f fs ih => rw [wires, List.length_append, List.length_cons, Frame.wire]; simp; omega

/-! Conforming streams can be read in one way only. -/

/-- Splitting a conforming frame off its wire form. -/
theorem split_wire (f : Frame) (h : f.payload.length < 2 ^ 63) (rest : Bytes) : ∃ c0 c1 s, f.wire ++ rest = c0 :: c1 :: s ∧
    c0 = UInt8.ofNat ((if f.fin then 128 else 0) + f.opcode.val) ∧ ((c1 &&& 0x80 ≠ 0) ↔ f.key.isSome = true) ∧
    readSize c1 s = some (f.payload.length, (match f.key with | none => [] | some k => keyBytes k) ++ (f.masked ++ rest)) := by
  unfold Frame.wire Frame.masked
  cases hk : f.key with
  | none =>
    obtain ⟨c1, more, h1, h2, h3⟩ := readSize_rfc false f.payload.length h (f.payload ++ rest)
    refine ⟨_, _, more ++ (f.payload ++ rest), ?_, rfl, h3, h2⟩
    simp [h1]
  | some k =>
    obtain ⟨c1, more, h1, h2, h3⟩ := readSize_rfc true f.payload.length h (keyBytes k ++ (applyMask k f.payload ++ rest))
    refine ⟨_, _, more ++ (keyBytes k ++ (applyMask k f.payload ++ rest)), ?_, rfl, h3, h2⟩
    simp [h1]

theorem applyMask_twice (k : UInt8 × UInt8 × UInt8 × UInt8) (b : Bytes) : applyMask k (applyMask k b) = b := by
  apply List.ext_getElem?
  intro j
  simp only [applyMask, mapIdx_getElem?, Option.map_map]
  cases b[j]? with
  | none => rfl
  | some x => simp [UInt8.xor_assoc]

theorem c0_inj : ∀ (m m' : Bool) (o o' : Fin 16), UInt8.ofNat ((if m then 128 else 0) + o.val) = UInt8.ofNat ((if m' then 128 else 0) + o'.val) → m = m' ∧ o = o' := by
  decide +kernel

theorem wire_inj (f g : Frame) (r r' : Bytes) (hf : f.payload.length < 2 ^ 63) (hg : g.payload.length < 2 ^ 63) (h : f.wire ++ r = g.wire ++ r') : f = g ∧ r = r' := by
  obtain ⟨c0, c1, s, e1, e2, e3, e4⟩ := split_wire f hf r
  obtain ⟨d0, d1, t, g1, g2, g3, g4⟩ := split_wire g hg r'
  rw [e1, g1] at h
  injection h with h0 h; injection h with h1 h2
  subst h0; subst h1; subst h2
  rw [e2] at g2
  obtain ⟨i1, i2⟩ := c0_inj _ _ _ _ g2
  rw [e4] at g4
  injection g4 with g4; injection g4 with l1 l2
  have hk : f.key.isSome = g.key.isSome := by
    have := e3.symm.trans g3
    cases hf : f.key.isSome <;> cases hg : g.key.isSome <;> simp_all
  have hlen : f.masked.length = g.masked.length := by rw [masked_length, masked_length, l1]
  obtain ⟨fin, op, key, pay⟩ := f
  obtain ⟨fin', op', key', pay'⟩ := g
  simp only at *
  subst i1; subst i2
  cases key with
  | none =>
    cases key' with
    | none =>
      simp only [Frame.masked, List.nil_append] at l2 hlen
      obtain ⟨a, b⟩ := List.append_inj l2 hlen
      subst a; exact ⟨rfl, b⟩
    | some k => simp at hk
  | some k =>
    cases key' with
    | none => simp at hk
    | some k' =>
      simp only [Frame.masked] at l2 hlen
      obtain ⟨a, b⟩ := List.append_inj l2 rfl
      have hkk : k = k' := by
        obtain ⟨a1, a2, a3, a4⟩ := k; obtain ⟨b1, b2, b3, b4⟩ := k'
        simpa [keyBytes] using a
      subst hkk
      obtain ⟨c, d⟩ := List.append_inj b hlen
      have := congrArg (applyMask k) c
      rw [applyMask_twice, applyMask_twice] at this
      subst this; exact ⟨rfl, d⟩

/-! The library's own frames. -/

theorem maskFrom_get (key : Bytes) (b : Bytes) : ∀ i (j : Nat), (maskFrom key i b)[j]? = b[j]?.map fun x => x ^^^ key.getD ((i + j) % 4) 0 := by
  induction b with
  | nil => intro i j; simp [maskFrom]
  | cons x b ih =>
    intro i j
    rw [maskFrom]
    cases j with
    | zero => simp
    | succ j => simp [ih, Nat.add_assoc, Nat.add_comm 1 j]

theorem maskFrom_eq (k : UInt8 × UInt8 × UInt8 × UInt8) (b : Bytes) : maskFrom (keyBytes k) 0 b = applyMask k b := by
  apply List.ext_getElem?
  intro j
  rw [maskFrom_get, applyMask, mapIdx_getElem?]
  congr 1
  funext x
  congr 1
  rw [Nat.zero_add]
  have h4 : j % 4 = 0 ∨ j % 4 = 1 ∨ j % 4 = 2 ∨ j % 4 = 3 := by omega
  rcases h4 with h | h | h | h <;> rw [h] <;> simp [keyByte, keyBytes, h]

theorem len_mask : ∀ l : Fin 126, UInt8.ofNat l.val ||| 0x80 = UInt8.ofNat (l.val + 128) := by decide +kernel
theorem op_code (op : Opcode) : (0x80 : UInt8) ||| op.code = UInt8.ofNat (128 + (opNumber op).val) := by cases op <;> rfl

theorem serverFrame_wire (op : Opcode) (b : Bytes) (h : b.length < 126) : serverFrame op b = (⟨true, opNumber op, none, b⟩ : Frame).wire := by
  unfold serverFrame Frame.wire lengthPart rfcLength
  simp only [h, if_true, op_code]
  simp

theorem clientFrame_wire (op : Opcode) (k : UInt8 × UInt8 × UInt8 × UInt8) (b : Bytes) (h : b.length < 126) :
    clientFrame op (keyBytes k) b = (⟨true, opNumber op, some k, b⟩ : Frame).wire := by
  unfold clientFrame Frame.wire lengthPart rfcLength
  simp only [h, if_true, op_code, maskFrom_eq]
  rw [len_mask ⟨b.length, h⟩]
  simp

/-! Server-sent events. -/

theorem splitLines_block (d rest : Bytes) (h : (10 : UInt8) ∉ d) : ∀ cur, splitLines (d ++ 10 :: rest) cur = (cur ++ d) :: splitLines rest [] := by
  induction d with
  | nil => intro cur; simp [splitLines]
  | cons x d ih =>
    intro cur
    simp only [List.mem_cons, not_or] at h
    rw [List.cons_append, splitLines, if_neg (Ne.symm h.1), ih h.2]
    simp

def dataPrefix : Bytes := [100, 97, 116, 97, 58, 32]

theorem dataPrefix_eq : "data: ".toUTF8.toList = dataPrefix := by decide +kernel

theorem splitLines_sse : ∀ (ds : List Bytes), (∀ d ∈ ds, (10 : UInt8) ∉ d) →
    splitLines (ds.flatMap sseWrite) [] = ds.flatMap fun d => [dataPrefix ++ d, []] := by
  intro ds
  induction ds with
  | nil => intro _; rfl
  | cons d ds ih =>
    intro h
    have h10 : (10 : UInt8) ∉ dataPrefix ++ d := by
      rw [List.mem_append]
      rintro (h' | h')
      · revert h'; decide
      · exact h d (by simp) h'
    rw [List.flatMap_cons, List.flatMap_cons, sseWrite, dataPrefix_eq]
    have e : dataPrefix ++ d ++ [10, 10] ++ ds.flatMap sseWrite = (dataPrefix ++ d) ++ 10 :: ([] ++ 10 :: ds.flatMap sseWrite) := by simp
    rw [e, splitLines_block _ _ h10, splitLines_block [] _ (by simp), ih (fun x hx => h x (by simp [hx]))]
    simp

theorem dropCR_id (l : Bytes) (h : l.getLast? ≠ some 13) : dropCR l = l := by rw [dropCR, if_neg h]

theorem takeWhile_all {α : Type} (p : α → Bool) (l : List α) (h : ∀ x ∈ l, p x = true) : l.takeWhile p = l := by
  induction l with
  | nil => rfl
  | cons x l ih => rw [List.takeWhile_cons, h x (by simp), if_pos rfl, ih (fun y hy => h y (by simp [hy]))]

theorem isPrefixOf_append (a b : Bytes) : a.isPrefixOf (a ++ b) = true := by
  induction a with
  | nil => simp [List.isPrefixOf]
  | cons x a ih => simp [List.isPrefixOf, ih]

theorem getLast_append {a b : Bytes} (h : b ≠ []) : (a ++ b).getLast? = b.getLast? := by
  rw [List.getLast?_append]
  cases hb : b.getLast? with
  | none => rw [List.getLast?_eq_none_iff] at hb; exact absurd hb h
  | some x => rfl

theorem texts_sse : ∀ (ds : List Bytes), (∀ d ∈ ds, OneLine d) → sseTexts (ds.flatMap sseWrite) = ds := by
  intro ds h
  unfold sseTexts scanLines
  rw [splitLines_sse ds (fun d hd => (h d hd).1), takeWhile_all, dataPrefix_eq]
  · induction ds with
    | nil => rfl
    | cons d ds ih =>
      obtain ⟨h1, h2, h3, h4⟩ := h d (by simp)
      rw [List.flatMap_cons, List.map_append, List.filterMap_append, ih (fun x hx => h x (by simp [hx]))]
      simp only [List.map_cons, List.map_nil]
      rw [dropCR_id (dataPrefix ++ d) (by rw [getLast_append h2]; exact h3)]
      have e1 : (dataPrefix ++ d).drop 6 = d := by rw [show (6 : Nat) = dataPrefix.length from rfl, List.drop_left]
      simp only [List.filterMap_cons, isPrefixOf_append, if_true, e1, h2, if_false, List.filterMap_nil]
      simp [dropCR, dataPrefix, List.isPrefixOf]
  · intro x hx
    rw [List.mem_flatMap] at hx
    obtain ⟨d, hd, hx⟩ := hx
    obtain ⟨h1, h2, h3, h4⟩ := h d hd
    simp only [List.mem_cons, List.not_mem_nil, or_false] at hx
    rcases hx with rfl | rfl
    · rw [decide_eq_true_eq, List.length_append]; show 6 + d.length < 65536; omega
    · simp

end Verif.Sock
