import Verif.Wasm.StackModel
/-!
# C75, C89: Go values on the WebAssembly stack
-/
namespace Verif.Wasm

/-! ### Specification -/

/-- The words of an array. -/
def arrWords {α : Type} (f : α → List W) : (n : Nat) → Arr α n → List W
  | 0, _ => []
  | n + 1, v => f v.1 ++ arrWords f n v.2

mutual
/-- Specification: the words that stand for a value. Numbers of up to 32 bits are an i32 of the same
number (sign or zero extended), whose upper half is clear; wider ones are an i64; floats are their
bits; structs and arrays are their parts in order. -/
def Ty.words (str : List UInt8 → W) : (t : Ty) → t.Val → List W
  | .bool, v => [cond v 1#64 0#64]
  | .i8, v => [(BitVec.signExtend 32 (v : BitVec 8)).zeroExtend 64]
  | .i16, v => [(BitVec.signExtend 32 (v : BitVec 16)).zeroExtend 64]
  | .i32, v => [BitVec.zeroExtend 64 (v : BitVec 32)]
  | .i64, v => [v]
  | .u8, v => [BitVec.zeroExtend 64 (v : BitVec 8)]
  | .u16, v => [BitVec.zeroExtend 64 (v : BitVec 16)]
  | .u32, v => [BitVec.zeroExtend 64 (v : BitVec 32)]
  | .u64, v => [v]
  | .f32, v => [BitVec.zeroExtend 64 (v : BitVec 32)]
  | .f64, v => [v]
  | .c64, v => [BitVec.zeroExtend 64 (v.1 : BitVec 32), BitVec.zeroExtend 64 (v.2 : BitVec 32)]
  | .c128, v => [v.1, v.2]
  | .string, v => [str v]
  | .ref, _ => []
  | .struct fs, v => Tys.words str fs v
  | .array n t, v => arrWords (Ty.words str t) n v

/-- The words of fields. -/
def Tys.words (str : List UInt8 → W) : (ts : Tys) → ts.Val → List W
  | .nil, _ => []
  | .cons t ts, v => Ty.words str t v.1 ++ Tys.words str ts v.2
end

mutual
/-- Types made of booleans and numbers. -/
def Ty.Plain : Ty → Prop
  | .string => False
  | .ref => False
  | .struct fs => Tys.Plain fs
  | .array n t => n = 0 ∨ Ty.Plain t
  | _ => True

/-- Fields made of booleans and numbers. -/
def Tys.Plain : Tys → Prop
  | .nil => True
  | .cons t ts => Ty.Plain t ∧ Tys.Plain ts
end

mutual
/-- Types without small signed numbers and references. -/
def Ty.Wide : Ty → Prop
  | .i8 => False
  | .i16 => False
  | .ref => False
  | .struct fs => Tys.Wide fs
  | .array n t => n = 0 ∨ Ty.Wide t
  | _ => True

/-- Fields without small signed numbers and references. -/
def Tys.Wide : Tys → Prop
  | .nil => True
  | .cons t ts => Ty.Wide t ∧ Tys.Wide ts
end

/-! ### Empty types have one value and no words -/

theorem arr_unique {α : Type} (h : ∀ a b : α, a = b) : (n : Nat) → (x y : Arr α n) → x = y
  | 0, _, _ => rfl
  | n + 1, x, y => Prod.ext (h x.1 y.1) (arr_unique h n x.2 y.2)

mutual
theorem empty_unique : (t : Ty) → t.empty = true → ∀ a b : t.Val, a = b
  | .struct fs, h, a, b => empties_unique fs h a b
  | .array 0 _, _, _, _ => rfl
  | .array (n + 1) t, h, a, b => arr_unique (empty_unique t (by
      simp only [Ty.empty] at h
      simpa using h)) (n + 1) a b
  | .bool, h, _, _ => nomatch h
  | .i8, h, _, _ => nomatch h
  | .i16, h, _, _ => nomatch h
  | .i32, h, _, _ => nomatch h
  | .i64, h, _, _ => nomatch h
  | .u8, h, _, _ => nomatch h
  | .u16, h, _, _ => nomatch h
  | .u32, h, _, _ => nomatch h
  | .u64, h, _, _ => nomatch h
  | .f32, h, _, _ => nomatch h
  | .f64, h, _, _ => nomatch h
  | .c64, h, _, _ => nomatch h
  | .c128, h, _, _ => nomatch h
  | .string, h, _, _ => nomatch h
  | .ref, h, _, _ => nomatch h

theorem empties_unique : (ts : Tys) → ts.empty = true → ∀ a b : ts.Val, a = b
  | .nil, _, _, _ => rfl
  | .cons t ts, h, a, b => by
    simp only [Tys.empty, Bool.and_eq_true] at h
    exact Prod.ext (empty_unique t h.1 a.1 b.1) (empties_unique ts h.2 a.2 b.2)
end

theorem arrWords_nil {α : Type} (f : α → List W) (h : ∀ a, f a = []) :
    (n : Nat) → (x : Arr α n) → arrWords f n x = []
  | 0, _ => rfl
  | n + 1, x => by rw [arrWords, h, arrWords_nil f h n]; rfl

mutual
theorem empty_words (str : List UInt8 → W) : (t : Ty) → t.empty = true → ∀ a, t.words str a = []
  | .struct fs, h, a => empties_words str fs h a
  | .array 0 _, _, _ => rfl
  | .array (n + 1) t, h, a => arrWords_nil _ (empty_words str t (by
      simp only [Ty.empty] at h
      simpa using h)) (n + 1) a
  | .bool, h, _ => nomatch h
  | .i8, h, _ => nomatch h
  | .i16, h, _ => nomatch h
  | .i32, h, _ => nomatch h
  | .i64, h, _ => nomatch h
  | .u8, h, _ => nomatch h
  | .u16, h, _ => nomatch h
  | .u32, h, _ => nomatch h
  | .u64, h, _ => nomatch h
  | .f32, h, _ => nomatch h
  | .f64, h, _ => nomatch h
  | .c64, h, _ => nomatch h
  | .c128, h, _ => nomatch h
  | .string, h, _ => nomatch h
  | .ref, h, _ => nomatch h

theorem empties_words (str : List UInt8 → W) : (ts : Tys) → ts.empty = true → ∀ a, ts.words str a = []
  | .nil, _, _ => rfl
  | .cons t ts, h, a => by
    simp only [Tys.empty, Bool.and_eq_true] at h
    rw [Tys.words, empty_words str t h.1, empties_words str ts h.2]; rfl
end

/-! ### Small facts about words -/

theorem low32_ext (v : BitVec 32) : low32 (v.zeroExtend 64) = v := by
  apply BitVec.eq_of_toNat_eq
  simp only [low32, BitVec.truncate_eq_setWidth, BitVec.toNat_setWidth]
  omega

theorem low32_word32 (v : BitVec 32) : low32 (word32 v) = v := low32_ext v

theorem sign8 (v : BitVec 8) : (low32 ((BitVec.signExtend 32 v).zeroExtend 64)).truncate 8 = v := by
  rw [low32_ext]
  revert v; decide +kernel

theorem sign16 (v : BitVec 16) :
    (low32 ((BitVec.signExtend 32 v).zeroExtend 64)).truncate 16 = v := by
  rw [low32_ext]
  ext i hi
  have : i < 32 := by omega
  simp [BitVec.getElem_signExtend, hi, this]

theorem zero8 (v : BitVec 8) : (low32 (v.zeroExtend 64)).truncate 8 = v := by
  revert v; decide +kernel

theorem zero16 (v : BitVec 16) : (low32 (v.zeroExtend 64)).truncate 16 = v := by
  apply BitVec.eq_of_toNat_eq
  simp only [low32, BitVec.truncate_eq_setWidth, BitVec.toNat_setWidth]
  omega

/-! ### Decoding -/

theorem decodeArr_words {α : Type} (dec : List W → Option (α × List W)) (f : α → List W)
    (h : ∀ a rest, dec (f a ++ rest) = some (a, rest)) (rest : List W) :
    (n : Nat) → (x : Arr α n) → decodeArr dec n (arrWords f n x ++ rest) = some (x, rest)
  | 0, _ => rfl
  | n + 1, x => by
    rw [arrWords, List.append_assoc, decodeArr, h]
    have := decodeArr_words dec f h rest n x.2
    simp only [Option.bind_eq_bind, Option.bind_some, this]
    rfl

mutual
theorem decode_words_aux (str : List UInt8 → W) : (t : Ty) → t.Plain → (v : t.Val) → (rest : List W) →
    t.decode (t.words str v ++ rest) = some (v, rest)
  | .bool, _, v, rest => by cases (v : Bool) <;> rfl
  | .i8, _, v, rest => congrArg (fun x => some (x, rest)) (sign8 v)
  | .i16, _, v, rest => congrArg (fun x => some (x, rest)) (sign16 v)
  | .i32, _, v, rest => congrArg (fun x => some (x, rest)) (low32_ext v)
  | .i64, _, v, rest => rfl
  | .u8, _, v, rest => congrArg (fun x => some (x, rest)) (zero8 v)
  | .u16, _, v, rest => congrArg (fun x => some (x, rest)) (zero16 v)
  | .u32, _, v, rest => congrArg (fun x => some (x, rest)) (low32_ext v)
  | .u64, _, v, rest => rfl
  | .f32, _, v, rest => congrArg (fun x => some (x, rest)) (low32_ext v)
  | .f64, _, v, rest => rfl
  | .c64, _, v, rest => by
    have : (low32 (BitVec.zeroExtend 64 v.1), low32 (BitVec.zeroExtend 64 v.2)) = v :=
      Prod.ext (low32_ext v.1) (low32_ext v.2)
    exact congrArg (fun x => some (x, rest)) this
  | .c128, _, v, rest => rfl
  | .string, h, _, _ => h.elim
  | .ref, h, _, _ => h.elim
  | .struct fs, h, v, rest => by
    by_cases e : Tys.empty fs = true
    · have hw : (Ty.struct fs).words str v = [] := empties_words str fs e v
      rw [hw, List.nil_append]
      refine (if_pos e : (if Tys.empty fs = true then some (Tys.zero fs, rest) else
        Tys.decode fs rest) = _).trans ?_
      rw [empties_unique fs e (Tys.zero fs) v]
      rfl
    · refine (if_neg e : (if Tys.empty fs = true then some (Tys.zero fs, _) else
        Tys.decode fs _) = _).trans ?_
      exact decodes_words_aux str fs h v rest
  | .array n t, h, v, rest => by
    by_cases e : (n == 0 || Ty.empty t) = true
    · have hw : (Ty.array n t).words str v = [] := empty_words str (.array n t) e v
      rw [hw, List.nil_append]
      refine (if_pos e : (if (n == 0 || Ty.empty t) = true then some (Arr.zero (Ty.zero t) n, rest) else
        decodeArr (Ty.decode t) n rest) = _).trans ?_
      exact congrArg (fun x => some (x, rest))
        (empty_unique (.array n t) e (Arr.zero (Ty.zero t) n) v)
    · have hn : n ≠ 0 := by rintro rfl; simp at e
      refine (if_neg e : (if (n == 0 || Ty.empty t) = true then some (Arr.zero (Ty.zero t) n, _) else
        decodeArr (Ty.decode t) n _) = _).trans ?_
      exact decodeArr_words _ _ (decode_words_aux str t (h.resolve_left hn)) rest n v

theorem decodes_words_aux (str : List UInt8 → W) : (ts : Tys) → ts.Plain → (v : ts.Val) →
    (rest : List W) → ts.decode (ts.words str v ++ rest) = some (v, rest)
  | .nil, _, _, _ => rfl
  | .cons t ts, h, v, rest => by
    rw [Tys.words, List.append_assoc, Tys.decode, decode_words_aux str t h.1 v.1]
    have := decodes_words_aux str ts h.2 v.2 rest
    simp only [Option.bind_eq_bind, Option.bind_some, this]
    rfl
end

/-- C75: the words that stand for a value, followed by anything, are read as that value, and exactly
these words are used up. -/
theorem decode_words (str : List UInt8 → W) (t : Ty) (h : t.Plain) (v : t.Val) (rest : List W) :
    t.decode (t.words str v ++ rest) = some (v, rest) := decode_words_aux str t h v rest

example (rest : List W) : Ty.decode (.struct (.cons .i8 (.cons (.array 2 .u16) .nil)))
    (0xFFFFFFFF#64 :: 1#64 :: 2#64 :: rest) = some ((0xFF#8, (1#16, 2#16, ()), ()), rest) :=
  decode_words (fun _ => 0) (.struct (.cons .i8 (.cons (.array 2 .u16) .nil)))
    ⟨trivial, Or.inr trivial, trivial⟩ (0xFF#8, (1#16, 2#16, ()), ()) rest

/-! ### The declared types -/

theorem repeated_length {α : Type} (l : List α) (n : Nat) : (repeated α l n).length = n * l.length := by
  induction n with
  | zero => simp [repeated]
  | succ n ih => rw [repeated, List.length_append, ih, Nat.succ_mul]; omega

theorem arrWords_length {α : Type} (f : α → List W) (k : Nat) (h : ∀ a, (f a).length = k) :
    (n : Nat) → (x : Arr α n) → (arrWords f n x).length = n * k
  | 0, _ => by simp [arrWords]
  | n + 1, x => by
    rw [arrWords, List.length_append, h, arrWords_length f k h n, Nat.succ_mul]; omega

mutual
/-- Types that have words: references have none. -/
def Ty.NoRef : Ty → Prop
  | .ref => False
  | .struct fs => Tys.NoRef fs
  | .array n t => n = 0 ∨ Ty.NoRef t
  | _ => True

/-- Fields without references. -/
def Tys.NoRef : Tys → Prop
  | .nil => True
  | .cons t ts => Ty.NoRef t ∧ Tys.NoRef ts
end

mutual
theorem wasm_empty : (t : Ty) → t.empty = true → t.wasm = []
  | .struct fs, h => by rw [Ty.wasm, if_pos (by exact h)]
  | .array n t, h => by rw [Ty.wasm, if_pos (by exact h)]
  | .bool, h => nomatch h
  | .i8, h => nomatch h
  | .i16, h => nomatch h
  | .i32, h => nomatch h
  | .i64, h => nomatch h
  | .u8, h => nomatch h
  | .u16, h => nomatch h
  | .u32, h => nomatch h
  | .u64, h => nomatch h
  | .f32, h => nomatch h
  | .f64, h => nomatch h
  | .c64, h => nomatch h
  | .c128, h => nomatch h
  | .string, h => nomatch h
  | .ref, h => nomatch h

theorem words_length (str : List UInt8 → W) : (t : Ty) → t.NoRef → (v : t.Val) →
    (t.words str v).length = t.wasm.length
  | .bool, _, _ => rfl
  | .i8, _, _ => rfl
  | .i16, _, _ => rfl
  | .i32, _, _ => rfl
  | .i64, _, _ => rfl
  | .u8, _, _ => rfl
  | .u16, _, _ => rfl
  | .u32, _, _ => rfl
  | .u64, _, _ => rfl
  | .f32, _, _ => rfl
  | .f64, _, _ => rfl
  | .c64, _, _ => rfl
  | .c128, _, _ => rfl
  | .string, _, _ => rfl
  | .ref, h, _ => h.elim
  | .struct fs, h, v => by
    rw [Ty.wasm]
    split
    · rename_i e; rw [empty_words str (.struct fs) e]; rfl
    · exact words_lengths str fs h v
  | .array n t, h, v => by
    rw [Ty.wasm]
    split
    · rename_i e; rw [empty_words str (.array n t) e]; rfl
    · rename_i e
      have hn : n ≠ 0 := by rintro rfl; simp at e
      rw [repeated_length]
      exact arrWords_length _ _ (words_length str t (h.resolve_left hn)) n v

theorem words_lengths (str : List UInt8 → W) : (ts : Tys) → ts.NoRef → (v : ts.Val) →
    (ts.words str v).length = ts.wasm.length
  | .nil, _, _ => rfl
  | .cons t ts, h, v => by
    rw [Tys.words, Tys.wasm, List.length_append, List.length_append, words_length str t h.1,
      words_lengths str ts h.2]
end

/-- C75: a value is as many words as its declaration has value types. -/
theorem words_declared (str : List UInt8 → W) (t : Ty) (h : t.NoRef) (v : t.Val) :
    (t.words str v).length = t.wasm.length := words_length str t h v

example : (Ty.array 3 (.struct (.cons .c64 (.cons .bool .nil)))).wasm.length = 9 := by decide +kernel

/-! ### Encoding -/

/-- What an encoder does that writes `ws`. -/
def Writes (ws : List W) (r : List W → Option (List W × List W)) : Prop :=
  ∀ old rest : List W, old.length = ws.length → r (old ++ rest) = some (ws, rest)

theorem writes_put (w : W) : Writes [w] (put fun _ => w) := by
  intro old rest h
  match old, h with
  | [o], _ => rfl

theorem writes_andThen {a b : List W} {f g : List W → Option (List W × List W)}
    (ha : Writes a f) (hb : Writes b g) : Writes (a ++ b) (fun s => andThen (f s) g) := by
  intro old rest h
  rw [List.length_append] at h
  have h₁ : (old.take a.length).length = a.length := by rw [List.length_take]; omega
  have h₂ : (old.drop a.length).length = b.length := by rw [List.length_drop]; omega
  have : old ++ rest = old.take a.length ++ (old.drop a.length ++ rest) := by
    rw [← List.append_assoc, List.take_append_drop]
  show andThen (f (old ++ rest)) g = _
  rw [this, ha _ _ h₁]
  simp only [andThen]
  rw [hb _ _ h₂]

theorem writes_arr {α : Type} (enc : α → List W → Option (List W × List W)) (f : α → List W)
    (h : ∀ a, Writes (f a) (enc a)) : (n : Nat) → (x : Arr α n) →
    Writes (arrWords f n x) (encodeArr enc n x)
  | 0, _ => by
    intro old rest h
    match old, h with
    | [], _ => rfl
  | n + 1, x => writes_andThen (h x.1) (writes_arr enc f h n x.2)

theorem writes_nil {r : List W → Option (List W × List W)} (h : ∀ s, r s = some ([], s)) :
    Writes [] r := by
  intro old rest ho
  match old, ho with
  | [], _ => exact h rest

theorem zext8 (v : BitVec 8) : word32 (v.zeroExtend 32) = v.zeroExtend 64 := by
  revert v; decide +kernel

theorem zext16 (v : BitVec 16) : word32 (v.zeroExtend 32) = v.zeroExtend 64 := by
  apply BitVec.eq_of_toNat_eq
  simp only [word32, BitVec.truncate_eq_setWidth, BitVec.toNat_setWidth]
  omega

theorem writes8 (v : BitVec 8) :
    Writes [v.zeroExtend 64] (put fun _ => word32 (v.zeroExtend 32)) := by
  rw [zext8]; exact writes_put _

theorem writes16 (v : BitVec 16) :
    Writes [v.zeroExtend 64] (put fun _ => word32 (v.zeroExtend 32)) := by
  rw [zext16]; exact writes_put _

mutual
theorem encode_words_aux (str : List UInt8 → W) : (t : Ty) → t.Wide → (v : t.Val) →
    Writes (t.words str v) (t.encode str v)
  | .bool, _, v => writes_put _
  | .i8, h, _ => h.elim
  | .i16, h, _ => h.elim
  | .i32, _, v => writes_put _
  | .i64, _, v => writes_put _
  | .u8, _, v => writes8 v
  | .u16, _, v => writes16 v
  | .u32, _, v => writes_put _
  | .u64, _, v => writes_put _
  | .f32, _, v => writes_put _
  | .f64, _, v => writes_put _
  | .c64, _, v => writes_andThen (writes_put _) (writes_put _)
  | .c128, _, v => writes_andThen (writes_put _) (writes_put _)
  | .string, _, v => writes_put _
  | .ref, h, _ => h.elim
  | .struct fs, h, v => encodes_words_aux str fs h v
  | .array 0 t, _, v => writes_nil fun _ => rfl
  | .array (n + 1) t, h, v =>
    writes_arr _ _ (encode_words_aux str t (h.resolve_left (by omega))) (n + 1) v

theorem encodes_words_aux (str : List UInt8 → W) : (ts : Tys) → ts.Wide → (v : ts.Val) →
    Writes (ts.words str v) (ts.encode str v)
  | .nil, _, _ => writes_nil fun _ => rfl
  | .cons t ts, h, v => writes_andThen (encode_words_aux str t h.1 v.1) (encodes_words_aux str ts h.2 v.2)

end

/-- C75, host to guest, partial: values without `int8` and `int16` are written as the words that stand
for them, over exactly as many words of the stack, whatever these held. -/
theorem encode_words_partial (str : List UInt8 → W) (t : Ty) (h : t.Wide) (v : t.Val)
    (old rest : List W) (hl : old.length = (t.words str v).length) :
    t.encode str v (old ++ rest) = some (t.words str v, rest) :=
  encode_words_aux str t h v old rest hl

example : Ty.encode (fun _ => 7) (.struct (.cons .i32 (.cons .string .nil))) (0xFFFFFFFF#32, [1], ())
    [5#64, 6#64, 9#64] = some ([0xFFFFFFFF#64, 7#64], [9#64]) :=
  encode_words_partial (fun _ => 7) (.struct (.cons .i32 (.cons .string .nil)))
    ⟨trivial, trivial, trivial⟩ (0xFFFFFFFF#32, [1], ()) [5, 6] [9] rfl

/-- C75 fails for `int8` and `int16`: only their own bytes are written, so that the number -1 is an i32
of 255 or of whatever was on the stack before. -/
theorem encode_words_fails (str : List UInt8 → W) :
    Ty.encode str .i8 0xFF#8 [0x1200#64] = some ([0x12FF#64], []) ∧
    Ty.encode str .i16 0xFFFF#16 [0#64] = some ([0xFFFF#64], []) ∧
    Ty.words str .i8 0xFF#8 = [0xFFFFFFFF#64] ∧ Ty.words str .i16 0xFFFF#16 = [0xFFFFFFFF#64] := by
  refine ⟨?_, ?_, ?_, ?_⟩
  · simp only [Ty.encode, put, store8]; rfl
  · simp only [Ty.encode, put, store16]; rfl
  · simp only [Ty.words]; rfl
  · simp only [Ty.words]; rfl

/-! ### What is encoded is decoded -/

/-- What an encoder and a decoder do that agree on `v`. -/
def Agree {α : Type} (k : Nat) (enc : List W → Option (List W × List W))
    (dec : List W → Option (α × List W)) (v : α) : Prop :=
  ∀ old rest : List W, old.length = k → ∃ ws, enc (old ++ rest) = some (ws, rest) ∧ ws.length = k ∧
    ∀ rest', dec (ws ++ rest') = some (v, rest')

theorem agree_put {α : Type} (f : W → W) (g : W → α) (v : α) (h : ∀ w, g (f w) = v) :
    Agree 1 (put f) (fun s => do let (w, s) ← pop s; pure (g w, s)) v := by
  intro old rest ho
  match old, ho with
  | [o], _ => exact ⟨[f o], rfl, rfl, fun rest' => by simp [pop, h]⟩

theorem agree_pair {α β : Type} {k l : Nat} {e₁ e₂ : List W → Option (List W × List W)}
    {d₁ : List W → Option (α × List W)} {d₂ : List W → Option (β × List W)} {a : α} {b : β}
    (h₁ : Agree k e₁ d₁ a) (h₂ : Agree l e₂ d₂ b) :
    Agree (k + l) (fun s => andThen (e₁ s) e₂)
      (fun s => do let (a, s) ← d₁ s; let (b, s) ← d₂ s; pure ((a, b), s)) (a, b) := by
  intro old rest ho
  obtain ⟨ws, hw, lw, dw⟩ := h₁ (old.take k) (old.drop k ++ rest) (by rw [List.length_take]; omega)
  obtain ⟨us, hu, lu, du⟩ := h₂ (old.drop k) rest (by rw [List.length_drop]; omega)
  refine ⟨ws ++ us, ?_, by simp [lw, lu], ?_⟩
  · rw [← List.append_assoc, List.take_append_drop] at hw
    simp only [andThen, hw, hu]
  · intro rest'
    simp only [List.append_assoc, dw, Option.bind_eq_bind, Option.bind_some, du]
    rfl

theorem agree_nil {α : Type} {e : List W → Option (List W × List W)} {d : List W → Option (α × List W)}
    {v : α} (h₁ : ∀ s, e s = some ([], s)) (h₂ : ∀ s, d s = some (v, s)) : Agree 0 e d v := by
  intro old rest ho
  match old, ho with
  | [], _ => exact ⟨[], h₁ rest, rfl, h₂⟩

theorem agree_arr {α : Type} {k : Nat} (enc : α → List W → Option (List W × List W))
    (dec : List W → Option (α × List W)) (h : ∀ a, Agree k (enc a) dec a) :
    (n : Nat) → (x : Arr α n) → Agree (n * k) (encodeArr enc n x) (decodeArr dec n) x
  | 0, _ => by rw [Nat.zero_mul]; exact agree_nil (fun _ => rfl) (fun _ => rfl)
  | n + 1, x => by
    rw [show (n + 1) * k = k + n * k by rw [Nat.succ_mul]; omega]
    exact agree_pair (h x.1) (agree_arr enc dec h n x.2)

theorem store8_low (v : BitVec 8) (w : W) : (low32 (store8 v w)).truncate 8 = v := by
  ext i hi
  have h₁ : i < 32 := by omega
  have h₂ : i < 64 := by omega
  have h₃ : (0xFF#64).getLsbD i = true := by
    have : ∀ j : Fin 8, (0xFF#64).getLsbD j.val = true := by decide
    exact this ⟨i, hi⟩
  simp [low32, store8, h₁, h₂, h₃, hi]

theorem store16_low (v : BitVec 16) (w : W) : (low32 (store16 v w)).truncate 16 = v := by
  ext i hi
  have h₁ : i < 32 := by omega
  have h₂ : i < 64 := by omega
  have h₃ : (0xFFFF#64).getLsbD i = true := by
    have : ∀ j : Fin 16, (0xFFFF#64).getLsbD j.val = true := by decide
    exact this ⟨i, hi⟩
  simp [low32, store16, h₁, h₂, h₃, hi]

theorem zero8' (v : BitVec 8) : (low32 (word32 (v.zeroExtend 32))).truncate 8 = v := by
  revert v; decide +kernel

theorem zero16' (v : BitVec 16) : (low32 (word32 (v.zeroExtend 32))).truncate 16 = v := by
  rw [zext16]; exact zero16 v

/-- An encoder that writes nothing. -/
theorem encodeArr_nothing {α : Type} (enc : α → List W → Option (List W × List W))
    (h : ∀ a s, enc a s = some ([], s)) : (n : Nat) → (x : Arr α n) → (s : List W) →
    encodeArr enc n x s = some ([], s)
  | 0, _, _ => rfl
  | n + 1, x, s => by rw [encodeArr, h, andThen, encodeArr_nothing enc h n]; rfl

mutual
theorem encode_empty (str : List UInt8 → W) : (t : Ty) → t.empty = true → ∀ (v : t.Val) (s : List W),
    t.encode str v s = some ([], s)
  | .struct fs, h, v, s => encodes_empty str fs h v s
  | .array 0 _, _, _, _ => rfl
  | .array (n + 1) t, h, v, s => encodeArr_nothing _ (encode_empty str t (by
      simp only [Ty.empty] at h
      simpa using h)) (n + 1) v s
  | .bool, h, _, _ => nomatch h
  | .i8, h, _, _ => nomatch h
  | .i16, h, _, _ => nomatch h
  | .i32, h, _, _ => nomatch h
  | .i64, h, _, _ => nomatch h
  | .u8, h, _, _ => nomatch h
  | .u16, h, _, _ => nomatch h
  | .u32, h, _, _ => nomatch h
  | .u64, h, _, _ => nomatch h
  | .f32, h, _, _ => nomatch h
  | .f64, h, _, _ => nomatch h
  | .c64, h, _, _ => nomatch h
  | .c128, h, _, _ => nomatch h
  | .string, h, _, _ => nomatch h
  | .ref, h, _, _ => nomatch h

theorem encodes_empty (str : List UInt8 → W) : (ts : Tys) → ts.empty = true →
    ∀ (v : ts.Val) (s : List W), ts.encode str v s = some ([], s)
  | .nil, _, _, _ => rfl
  | .cons t ts, h, v, s => by
    simp only [Tys.empty, Bool.and_eq_true] at h
    rw [Tys.encode, encode_empty str t h.1, andThen, encodes_empty str ts h.2]; rfl
end

mutual
theorem agree_aux (str : List UInt8 → W) : (t : Ty) → t.Plain → (v : t.Val) →
    Agree t.wasm.length (t.encode str v) t.decode v
  | .bool, _, v => agree_put _ (· != 0#64) v (fun _ => by cases v <;> rfl)
  | .i8, _, v => agree_put _ (fun w => (low32 w).truncate 8) v (store8_low v)
  | .i16, _, v => agree_put _ (fun w => (low32 w).truncate 16) v (store16_low v)
  | .i32, _, v => agree_put _ low32 v (fun _ => low32_word32 v)
  | .i64, _, v => agree_put _ id v (fun _ => rfl)
  | .u8, _, v => agree_put _ (fun w => (low32 w).truncate 8) v (fun _ => zero8' v)
  | .u16, _, v => agree_put _ (fun w => (low32 w).truncate 16) v (fun _ => zero16' v)
  | .u32, _, v => agree_put _ low32 v (fun _ => low32_word32 v)
  | .u64, _, v => agree_put _ id v (fun _ => rfl)
  | .f32, _, v => agree_put _ low32 v (fun _ => low32_word32 v)
  | .f64, _, v => agree_put _ id v (fun _ => rfl)
  | .c64, _, v => by
    have := agree_pair (agree_put (fun _ => word32 v.1) low32 v.1 (fun _ => low32_word32 v.1))
      (agree_put (fun _ => word32 v.2) low32 v.2 (fun _ => low32_word32 v.2))
    intro old rest ho
    obtain ⟨ws, a, b, c⟩ := this old rest ho
    refine ⟨ws, a, b, fun rest' => ?_⟩
    have := c rest'
    match ws, b with
    | [x, y], _ => exact this
  | .c128, _, v => by
    have := agree_pair (agree_put (fun _ => v.1) id v.1 (fun _ => rfl))
      (agree_put (fun _ => v.2) id v.2 (fun _ => rfl))
    intro old rest ho
    obtain ⟨ws, a, b, c⟩ := this old rest ho
    refine ⟨ws, a, b, fun rest' => ?_⟩
    have := c rest'
    match ws, b with
    | [x, y], _ => exact this
  | .string, h, _ => h.elim
  | .ref, h, _ => h.elim
  | .struct fs, h, v => by
    by_cases e : Tys.empty fs = true
    · rw [wasm_empty (.struct fs) e]
      refine agree_nil (encode_empty str (.struct fs) e v) fun s => ?_
      refine (if_pos e : (if Tys.empty fs = true then some (Tys.zero fs, s) else
        Tys.decode fs s) = _).trans ?_
      exact congrArg (fun x => some (x, s)) (empties_unique fs e (Tys.zero fs) v)
    · have hw : (Ty.struct fs).wasm = fs.wasm := by rw [Ty.wasm, if_neg e]
      have hd : (Ty.struct fs).decode = Tys.decode fs := by
        funext s
        exact (if_neg e : (if Tys.empty fs = true then some (Tys.zero fs, s) else
          Tys.decode fs s) = _)
      rw [hw, hd]
      exact agrees_aux str fs h v
  | .array n t, h, v => by
    by_cases e : (n == 0 || Ty.empty t) = true
    · rw [wasm_empty (.array n t) e]
      refine agree_nil (encode_empty str (.array n t) e v) fun s => ?_
      refine (if_pos e : (if (n == 0 || Ty.empty t) = true then some (Arr.zero (Ty.zero t) n, s) else
        decodeArr (Ty.decode t) n s) = _).trans ?_
      exact congrArg (fun x => some (x, s)) (empty_unique (.array n t) e (Arr.zero (Ty.zero t) n) v)
    · have hn : n ≠ 0 := by rintro rfl; simp at e
      have hw : (Ty.array n t).wasm.length = n * t.wasm.length := by
        rw [Ty.wasm, if_neg e, repeated_length]
      have hd : (Ty.array n t).decode = decodeArr (Ty.decode t) n := by
        funext s
        exact (if_neg e : (if (n == 0 || Ty.empty t) = true then some (Arr.zero (Ty.zero t) n, s) else
          decodeArr (Ty.decode t) n s) = _)
      rw [hw, hd]
      exact agree_arr _ _ (agree_aux str t (h.resolve_left hn)) n v

theorem agrees_aux (str : List UInt8 → W) : (ts : Tys) → ts.Plain → (v : ts.Val) →
    Agree ts.wasm.length (ts.encode str v) ts.decode v
  | .nil, _, _ => agree_nil (fun _ => rfl) (fun _ => rfl)
  | .cons t ts, h, v => by
    rw [show (Tys.cons t ts).wasm.length = t.wasm.length + ts.wasm.length from by
      rw [Tys.wasm, List.length_append]]
    exact agree_pair (agree_aux str t h.1 v.1) (agrees_aux str ts h.2 v.2)
end

/-- C75: a value of booleans and numbers in any nesting that is written to a stack of enough words is
read back from it; exactly the declared number of words is written, and the rest is left alone. -/
theorem round_trip (str : List UInt8 → W) (t : Ty) (h : t.Plain) (v : t.Val) (old rest : List W)
    (hl : old.length = t.wasm.length) :
    ∃ ws, t.encode str v (old ++ rest) = some (ws, rest) ∧ ws.length = t.wasm.length ∧
      t.decode (ws ++ rest) = some (v, rest) :=
  let ⟨ws, a, b, c⟩ := agree_aux str t h v old rest hl
  ⟨ws, a, b, c rest⟩

example (w : W) : ∃ ws, Ty.encode (fun _ => 0) (.array 2 (.struct (.cons .i8 (.cons .f64 .nil))))
    ((0x80#8, 1#64, ()), (1#8, 2#64, ()), ()) [w, w, w, w, w] = some (ws, [w]) ∧ ws.length = 4 :=
  let ⟨ws, a, b, _⟩ := round_trip (fun _ => 0) (.array 2 (.struct (.cons .i8 (.cons .f64 .nil))))
    (Or.inr ⟨trivial, trivial, trivial⟩) ((0x80#8, 1#64, ()), (1#8, 2#64, ()), ()) [w, w, w, w] [w] rfl
  ⟨ws, a, b⟩

/-- C75 fails for the types that are accepted by the declaration but cannot be read: a string has a
declared type but every attempt to read one panics. -/
theorem string_param_fails (stack : List W) :
    Ty.wasm .string = [.i64] ∧ Ty.decode .string stack = none ∧
    Ty.wasm .ref = [.i64] ∧ Ty.decode .ref stack = none := ⟨rfl, rfl, rfl, rfl⟩

/-! ### Exported functions -/

/-- C89, partial: a function of booleans and numbers with at most one result, which is one word (a
number, a boolean or a string), is called with the arguments the guest passed, and the guest reads its
result. -/
theorem export_call_partial (str : List UInt8 → W) (ins : Tys) (t : Ty) (hasErr : Bool)
    (impl : ins.Val → Option (Tys.Val (.cons t .nil))) (hi : ins.Plain) (ht : t.Wide)
    (h1 : t.wasm.length = 1) (hn : t.NoRef) (args : ins.Val) (v : t.Val)
    (hv : impl args = some (v, ())) (w : W) (rest : List W) (stack : List W)
    (hs : stack = w :: rest) (ha : ∃ more, stack = ins.words str args ++ more) :
    Fn.invoke str ⟨ins, .cons t .nil, hasErr, impl⟩ stack = some (t.words str v ++ rest) := by
  obtain ⟨more, ha⟩ := ha
  have hd := decodes_words_aux str ins hi args more
  rw [← ha] at hd
  have hl := words_length str t hn v
  have he := encode_words_aux str t ht v [w] rest (by rw [hl, h1]; rfl)
  rw [Fn.invoke, if_neg (by simp [Tys.length])]
  simp only [hd, hv]
  have hr : (Fn.mk ins (.cons t .nil) hasErr impl).results.length = 1 := by
    have hw : (Tys.cons t .nil).wasm.length = 1 := by
      rw [Tys.wasm, List.length_append, h1]; rfl
    cases hasErr with
    | true =>
      simp only [Fn.results, if_true]
      rw [if_pos (by rw [List.length_append, hw]; decide)]
      rfl
    | false =>
      simp only [Fn.results, Bool.false_eq_true, if_false, List.append_nil]
      rw [if_neg (by rw [hw]; decide), hw]
  simp only [hr, Tys.length, Nat.zero_add, Nat.max_self]
  subst hs
  simp only [encodeFirst]
  rw [show w :: rest = [w] ++ rest from rfl, he]

example : Fn.invoke (fun _ => 0) ⟨.cons .i64 (.cons .i64 .nil), .cons .i64 .nil, false,
    fun v => some (BitVec.add v.1 v.2.1, ())⟩ [2#64, 3#64] = some [5#64, 3#64] :=
  export_call_partial (fun _ => 0) (.cons .i64 (.cons .i64 .nil)) .i64 false
    (fun v => some (BitVec.add v.1 v.2.1, ())) ⟨trivial, trivial, trivial⟩ trivial rfl trivial
    (2#64, 3#64, ()) 5#64 rfl 2 [3] _ rfl ⟨[], rfl⟩

/-- C89 fails: the error of a function without parameters and results is dropped. -/
theorem export_error_dropped (str : List UInt8 → W) (stack : List W) :
    Fn.invoke str ⟨.nil, .nil, true, fun _ => none⟩ stack = some stack := rfl

/-- C89 fails: a function that only returns an error panics if it succeeds, whatever its parameters
are, unless it has none. -/
theorem export_error_panics (str : List UInt8 → W) (t : Ty) (ts : Tys)
    (impl : (Tys.cons t ts).Val → Option Unit) (stack : List W) :
    Fn.invoke str ⟨.cons t ts, .nil, true, impl⟩ stack = none := by
  rw [Fn.invoke, if_neg (by simp [Tys.length])]
  cases h : (Tys.cons t ts).decode stack with
  | none => simp only [h]
  | some r =>
    obtain ⟨args, s⟩ := r
    cases h' : impl args with
    | none => simp only [h, h']
    | some outs => simp only [h, h']; rfl

/-- C89 fails: a result of two words is declared as one, and the second word overwrites the stack
behind it or, if there is none, panics. -/
theorem export_struct_fails (str : List UInt8 → W) (a b w : W) :
    let fn : Fn := ⟨.nil, .cons (.struct (.cons .i64 (.cons .i64 .nil))) .nil, false,
      fun _ => some ((a, b, ()), ())⟩
    fn.results = [.i64] ∧ fn.invoke str [w] = none := ⟨rfl, rfl⟩

/-- C89 fails: functions with several results always panic. -/
theorem export_many_fails (str : List UInt8 → W) (a b : W) (stack : List W) :
    Fn.invoke str ⟨.nil, .cons .i64 (.cons .i64 .nil), false, fun _ => some (a, b, ())⟩ stack = none :=
  rfl

end Verif.Wasm
