import Verif.Bin.Lemmas

/-!
# Binary formats: C178

A function with a `bin` tag appends the bytes its tag asks for.
-/
namespace Verif.Bin
open Spec

/-- C178. For every tag in which the letters of an argument come in one run, a letter has bits or brackets but not both,
comparisons are with decimals without the digit 0, and for all unsigned arguments with fewer bits than their letters: the
bytes appended are those the tag asks for. -/
theorem writes_tag_partial (ws : List Word) (args : Fin 4 → Nat) (hw : WellFormed ws) (hr : Runs ws) (ha : Apart ws)
    (hz : NoZero ws) (hf : Fits ws args) : Writes ws args := by
  have hmem : ∀ (ws : List Word) w, w ∈ ws → ∀ is, w = .bits is → ∀ i ∈ is, i ∈ items ws := by
    intro ws
    induction ws with
    | nil => simp
    | cons v ws ih =>
      intro w hw is e i hi
      rw [items_cons]
      rcases List.mem_cons.1 hw with rfl | h
      · subst e; simp [items, hi]
      · exact List.mem_append_right _ (ih w h is e i hi)
  have hok : ∀ w ∈ ws, WordOk (fun x => width ws x - 1) args w := by
    intro w h
    have h1 := hw.2 w h
    cases w with
    | hex a b => exact h1
    | bits is =>
      refine ⟨h1.1, fun i hi => ?_⟩
      have h2 := h1.2 i hi
      have h3 := hmem ws _ h is rfl i hi
      cases i with
      | bit b => trivial
      | letter x =>
        have h4 := hf x h3
        have h5 : 0 < width ws x := List.count_pos_iff.2 h3
        refine ⟨?_, h4.2⟩
        show width ws x - 1 < 64
        omega
      | field x k => exact h2
      | test x op ds =>
        refine ⟨h2.1, fun c hc => digit_cases (h2.2.1 c hc) ?_, h2.2.2⟩
        rintro rfl
        exact hz x op ds h3 hc
  have hpos : ∀ x, .letter x ∈ items ws → width ws x - 1 + 1 = width ws x := by
    intro x h
    have : 0 < width ws x := List.count_pos_iff.2 h
    omega
  have main := words_steps (tagText ws) args (fun x => width ws x - 1) ws [] none 0
    (fun x h => by
      rw [sizeOf, count_tag ws hok x (ha x h)]
      rfl)
    hok (fun x _ => by simp) (by simpa [RunsAt, Runs] using hr) (fun x h => by
      have := hpos x h
      simp only [List.nil_append]
      show width ws x ≤ _
      omega)
  have hb : ∀ (vs : List Word) (seen : List Item), (∀ x, .letter x ∈ items vs → .letter x ∈ items ws) →
      bytes (fun x => width ws x - 1 + 1) args seen vs = bytes (width ws) args seen vs := by
    have hi : ∀ (is seen : List Item), (∀ x, .letter x ∈ is → .letter x ∈ items ws) →
        itemsBits (fun x => width ws x - 1 + 1) args seen is = itemsBits (width ws) args seen is := by
      intro is
      induction is with
      | nil => intros; rfl
      | cons i is ih =>
        intro seen h
        simp only [itemsBits, ih (seen ++ [i]) (fun x hx => h x (by simp [hx]))]
        cases i with
        | letter x =>
          have := hpos x (h x (by simp))
          simp [Item.bits]
        | _ => rfl
    intro vs
    induction vs with
    | nil => intros; rfl
    | cons v vs ih =>
      intro seen h
      cases v with
      | hex a b => simp only [bytes]; rw [ih seen h]
      | bits is =>
        simp only [bytes]
        rw [hi is seen (fun x hx => h x (by simp [items, hx])), ih _ (fun x hx => h x (by simp [items, hx]))]
  rw [Writes, ← hb ws [] (fun _ h => h), ← main]
  show wordsFrom _ (argList args) none 0 (words (tagText ws)) = _
  rw [words_tag ws hw.1 hok]

/-- Two bytes with a hexadecimal one between them: bits of two arguments, a field of a third and a comparison. -/
def sample : List Word :=
  [.bits [.bit true, .letter 0, .letter 0, .letter 0, .field 2 3, .test 3 .more ['7']], .hex 'F' '7',
   .bits [.bit false, .bit true, .letter 1, .letter 1, .bit false, .letter 1, .letter 1, .letter 1]]

def sampleArgs : Fin 4 → Nat
  | 0 => 3
  | 1 => 13
  | 2 => 21
  | 3 => 8

/-- `1aaa[c000][d>7] 0xF7 01bb0bbb`. -/
example : tagText sample = "1aaa[c000][d>7] 0xF7 01bb0bbb".toList := by decide

example : bytes (width sample) sampleArgs [] sample = [0b10111011, 0xF7, 0b01010101] := by decide

/-- Decided by counting positions. -/
theorem runs_of (ws : List Word)
    (h : ∀ k < (items ws).length, ∀ x : Fin 4, (items ws)[k]? = some (.bit true) ∨ (items ws)[k]? = some (.bit false) ∨
      .letter x ∉ (items ws).take k ∨ .letter x ∉ (items ws).drop (k + 1) ∨ (items ws)[k]? = some (.letter x)) :
    Runs ws := by
  intro before i after e hb x h1 h2
  have := h before.length (by rw [e]; simp) x
  rw [e] at this
  have hd : (before ++ i :: after).drop (before.length + 1) = after := by simp [List.drop_append]
  rw [hd] at this
  simpa [hb true, hb false, h1, h2] using this

theorem sample_meets : WellFormed sample ∧ Runs sample ∧ Apart sample ∧ NoZero sample ∧ Fits sample sampleArgs := by
  refine ⟨⟨by decide, ?_⟩, runs_of _ (by decide), ?_, ?_, by simp only [Fits]; decide⟩
  · intro w hw
    simp [sample] at hw
    rcases hw with rfl | rfl | rfl
    · refine ⟨by decide, ?_⟩
      intro i hi
      simp at hi
      rcases hi with rfl | rfl | rfl | rfl <;> simp [decimal]
    · exact ⟨by decide, by decide⟩
    · refine ⟨by decide, ?_⟩
      intro i hi
      simp at hi
      rcases hi with rfl | rfl | rfl | rfl | rfl <;> simp
  · simp only [Apart]; decide
  · intro x op ds h
    simp [items, sample] at h
    obtain ⟨-, -, rfl⟩ := h
    decide

example : Writes sample sampleArgs := by
  obtain ⟨a, b, c, d, e⟩ := sample_meets
  exact writes_tag_partial sample sampleArgs a b c d e

example : write false "1aaa[c000][d>7] 0xF7 01bb0bbb".toList (argList sampleArgs) = some [0b10111011, 0xF7, 0b01010101] := by
  decide

/-- C178. The first bit of an argument spelled out in letters is never written: whatever the tag, the letter's bit after
no others of its run is 0. -/
theorem top_bit_fails :
    ∃ ws args, WellFormed ws ∧ Runs ws ∧ Apart ws ∧ NoZero ws ∧ (∀ x, args x < 2 ^ width ws x) ∧ ¬ Writes ws args ∧
      write false (tagText ws) (argList args) = some [0x7F] := by
  refine ⟨[.bits (List.replicate 8 (.letter 0))], fun x => if x = 0 then 255 else 0, ⟨by decide, ?_⟩, runs_of _ (by decide),
    by simp only [Apart]; decide, ?_, by decide, ?_, by decide⟩
  · intro w hw
    simp at hw
    subst hw
    refine ⟨by decide, ?_⟩
    intro i hi
    simp at hi
    subst hi
    trivial
  · intro x op ds h
    simp [items] at h
  · unfold Writes; decide

/-- For all tags: a letter after no other of its run writes a 0. -/
theorem first_letter_zero (tag : Str) (args : List Arg) (s s' : St) (c : Char) (h : step tag args s c = some s')
    (hc : isName c = true) (hout : s.sub = false) (hnew : s.name ≠ some c) : s'.out = s.out ++ [false] := by
  have h0 : c ≠ '0' := by rintro rfl; cases hc
  have h1 : c ≠ '1' := by rintro rfl; cases hc
  simp only [step, hout, Bool.and_false, h0, h1, hc, if_true, if_false, hnew, Bool.false_eq_true] at h
  split at h
  · cases h
  · split at h
    · cases h
    · simp only [Option.some.injEq] at h
      subst h
      simp [letterBit, Nat.testBit_lt_two_pow (Nat.mod_lt _ (Nat.two_pow_pos _))]

example : ∃ s', step "aaaaaaaa".toList [.uint 255] (startWord none 0) 'a' = some s' := ⟨_, rfl⟩

/-- C178. The tag of the arm64 addition: the bytes are written in reverse, and with them the bits of an argument that
spans two bytes; the first of each is dropped, too. Adding to register 1 register 2 and register 3 is encoded as
`8B 03 00 01`: the second source is register 0. -/
theorem arm64_add_fails :
    write true "10001011 000ccccc 000000bb bbbaaaaa".toList [.uint 1, .uint 2, .uint 3] = some [0x01, 0x00, 0x03, 0x8B] ∧
    bytes (width [.bits [.bit true, .bit false, .bit false, .bit false, .bit true, .bit false, .bit true, .bit true],
        .bits [.bit false, .bit false, .bit false, .letter 2, .letter 2, .letter 2, .letter 2, .letter 2],
        .bits [.bit false, .bit false, .bit false, .bit false, .bit false, .bit false, .letter 1, .letter 1],
        .bits [.letter 1, .letter 1, .letter 1, .letter 0, .letter 0, .letter 0, .letter 0, .letter 0]])
      (fun x => x.val + 1) []
      [.bits [.bit true, .bit false, .bit false, .bit false, .bit true, .bit false, .bit true, .bit true],
        .bits [.bit false, .bit false, .bit false, .letter 2, .letter 2, .letter 2, .letter 2, .letter 2],
        .bits [.bit false, .bit false, .bit false, .bit false, .bit false, .bit false, .letter 1, .letter 1],
        .bits [.letter 1, .letter 1, .letter 1, .letter 0, .letter 0, .letter 0, .letter 0, .letter 0]] =
      [0x8B, 0x03, 0x00, 0x41] := by
  constructor <;> decide

/-- The amd64 addition. -/
def amd64Add : List Word :=
  [.bits [.bit false, .bit true, .bit false, .bit false, .bit true, .test 1 .more ['7'], .bit false, .test 0 .more ['7']],
   .hex '0' '1',
   .bits [.bit true, .bit true, .letter 1, .letter 1, .letter 1, .letter 0, .letter 0, .letter 0]]

/-- C178. The tag of the amd64 addition compares the arguments whose bits it writes, and the letter in the comparison
counts as a bit: `add rcx, rdx` becomes `add rax, rcx`. -/
theorem amd64_add_fails :
    tagText amd64Add = "01001[b>7]0[a>7] 0x01 11bbbaaa".toList ∧
    bytes (width amd64Add) (fun x => if x = 0 then 1 else if x = 1 then 2 else 0) [] amd64Add = [0x48, 0x01, 0b11010001] ∧
    write false "01001[b>7]0[a>7] 0x01 11bbbaaa".toList [.uint 1, .uint 2] = some [0x48, 0x01, 0b11001000] := by
  refine ⟨?_, ?_, ?_⟩ <;> decide

/-- C178. A comparison with 10 panics, and so does one with 0. -/
theorem zero_fails :
    write false "0000000[a>10]".toList [.uint 11] = none ∧ write false "0000000[a>0]".toList [.uint 11] = none ∧
    write false "0000000[a>9]".toList [.uint 11] = some [1] := by
  refine ⟨?_, ?_, ?_⟩ <;> decide

/-- C178. The registers the instructions take are signed integers, of which reflection has no unsigned value: a function
with an argument panics. -/
theorem signed_fails :
    (∀ i j k, write true "10001011 000ccccc 000000bb bbbaaaaa".toList [.int i, .int j, .int k] = none) ∧
    (∀ i j, write false "01001[b>7]0[a>7] 0x01 11bbbaaa".toList [.int i, .int j] = none) := by
  constructor <;> intros <;> rfl

/-- C178. Blanks for alignment are bytes without bits: multiplication and division panic for all arguments, even unsigned
ones. -/
theorem aligned_fails (v : Nat) : write false "0100101[a>7]     0xF7 1110000aaa".toList [.uint v] = none := by
  have e : words "0100101[a>7]     0xF7 1110000aaa".toList =
      ["0100101[a>7]".toList, [], [], [], [], "0xF7".toList, "1110000aaa".toList] := by decide
  have h1 : ∀ tag name bits, word tag [Arg.uint v] name bits [] = none := by intros; rfl
  simp only [write, Bool.false_eq_true, if_false, e, wordsFrom, h1]
  split <;> rfl

theorem hexFrom_digits {acc : Nat} {s : Str} {v : Nat} (h : hexFrom acc s = some v) :
    ∀ c ∈ s, c ∈ "0123456789abcdefABCDEF".toList := by
  induction s generalizing acc with
  | nil => intro c hc; cases hc
  | cons c s ih =>
    unfold hexFrom at h
    cases hd : hexDigit c with
    | none => rw [hd] at h; cases h
    | some d =>
      rw [hd] at h
      intro x hx
      rcases List.mem_cons.1 hx with rfl | hx
      · have key : ∀ lo hi : Char, lo ≤ x → x ≤ hi → lo.toNat ≤ x.toNat ∧ x.toNat ≤ hi.toNat := fun lo hi h1 h2 =>
          ⟨UInt32.le_iff_toNat_le.1 h1, UInt32.le_iff_toNat_le.1 h2⟩
        have tab : ∀ n < 128, (48 ≤ n ∧ n ≤ 57) ∨ (97 ≤ n ∧ n ≤ 102) ∨ (65 ≤ n ∧ n ≤ 70) →
            Char.ofNat n ∈ "0123456789abcdefABCDEF".toList := by decide
        have hx' : (48 ≤ x.toNat ∧ x.toNat ≤ 57) ∨ (97 ≤ x.toNat ∧ x.toNat ≤ 102) ∨ (65 ≤ x.toNat ∧ x.toNat ≤ 70) := by
          unfold hexDigit at hd
          split at hd
          · rename_i h'; exact .inl (key _ _ h'.1 h'.2)
          · split at hd
            · rename_i h'; exact .inr (.inl (key _ _ h'.1 h'.2))
            · split at hd
              · rename_i h'; exact .inr (.inr (key _ _ h'.1 h'.2))
              · cases hd
        have := tab x.toNat (by omega) hx'
        rwa [Char.ofNat_toNat] at this
      · exact ih h x hx

/-- C178. A tag is refused, by a panic, if a word that starts with `0x` goes on with anything but hexadecimal digits, or
with nothing. -/
theorem bad_byte_panics (reverse : Bool) (tag : Str) (args : List Arg) (w : Str) (hw : '0' :: 'x' :: w ∈ words tag)
    (hbad : w = [] ∨ ∃ c ∈ w, c ∉ "0123456789abcdefABCDEF".toList) : write reverse tag args = none := by
  have hp : parseHex w = none := by
    cases hv : parseHex w with
    | none => rfl
    | some v =>
      cases w with
      | nil => cases hv
      | cons c s =>
        rcases hbad with h | ⟨x, hx, hn⟩
        · cases h
        · exact absurd (hexFrom_digits hv x hx) hn
  have key : ∀ (ws : List Str) name bits, '0' :: 'x' :: w ∈ ws → wordsFrom tag args name bits ws = none := by
    intro ws
    induction ws with
    | nil => intro _ _ h; cases h
    | cons v ws ih =>
      intro name bits h
      rw [wordsFrom]
      rcases List.mem_cons.1 h with h | h
      · subst h; simp only [word, hp]
      · split
        · rfl
        · rw [ih _ _ h]
  unfold write
  refine key _ _ _ ?_
  cases reverse
  · exact hw
  · exact List.mem_reverse.2 hw

example : write true "0xC3 0xG1".toList [] = none :=
  bad_byte_panics true _ [] "G1".toList (by decide) (.inr ⟨'G', by decide, by decide⟩)

theorem decFrom_digits {acc : Nat} {s : Str} {v : Nat} (h : decFrom acc s = some v) : ∀ c ∈ s, c.isDigit = true := by
  induction s generalizing acc with
  | nil => intro c hc; cases hc
  | cons c s ih =>
    unfold decFrom at h
    split at h
    · rename_i hc
      intro x hx
      rcases List.mem_cons.1 hx with rfl | hx
      · simp only [Char.isDigit, Bool.and_eq_true, decide_eq_true_eq]; exact hc
      · exact ih h x hx
    · cases h

/-- C178. A tag of one byte is refused, by a panic, if the decimal of a comparison goes on with a letter or another sign:
`[a>1b]` or `[a>1=]`. -/
theorem bad_decimal_panics (args : List Arg) (x : Fin 4) (op : Op) (d : Char) (hd : '1' ≤ d ∧ d ≤ '9') (t rest : Str)
    (ht : ∃ c ∈ t, c.isDigit = false) (hw : ∀ c ∈ t, c ≠ ']' ∧ c ≠ ' ') (hr : ' ' ∉ rest) :
    write false ('[' :: nameOf x :: op.text :: d :: (t ++ ']' :: rest)) args = none := by
  have inner : ∀ (t : Str) tag name text m l e out, (∃ c ∈ text ++ t, c.isDigit = false) → (∀ c ∈ t, c ≠ ']') →
      steps tag args ⟨name, 1, true, some text, m, l, e, out⟩ (t ++ ']' :: rest) = none := by
    intro t
    induction t with
    | nil =>
      intro tag name text m l e out ⟨c, hc, hn⟩ _
      have hnone : decFrom 0 text = none := by
        cases h : decFrom 0 text with
        | none => rfl
        | some v => rw [decFrom_digits h c (by simpa using hc)] at hn; cases hn
      have : closeSub args ⟨name, 1, true, some text, m, l, e, out⟩ = none := by
        cases name with
        | none => rfl
        | some y =>
          cases ha : argOf args y <;> simp [closeSub, ha, hnone]
      simp [steps, step, subStep, isName, this]
    | cons y t ih =>
      intro tag name text m l e out hbad hno
      have hy := hno y (by simp)
      have hbad' : ∃ c ∈ (text ++ [y]) ++ t, c.isDigit = false := by simpa using hbad
      have hno' : ∀ c ∈ t, c ≠ ']' := fun c hc => hno c (by simp [hc])
      have := fun name m l e => ih tag name (text ++ [y]) m l e out hbad' hno'
      simp only [List.cons_append, steps, step, subStep, noteChar, hy]
      split
      · rename_i s hs
        simp only [Nat.lt_irrefl, decide_true, Bool.and_self, if_true, Bool.true_and, Option.isSome_some,
          Bool.or_true, if_false, gt_iff_lt, Nat.zero_lt_one] at hs
        repeat' (split at hs)
        all_goals first
          | (injection hs with hs; subst hs; exact this _ _ _ _)
          | cases hs
      · rfl
  have hsp : words ('[' :: nameOf x :: op.text :: d :: (t ++ ']' :: rest)) =
      ['[' :: nameOf x :: op.text :: d :: (t ++ ']' :: rest)] := by
    apply words_one
    simp only [List.mem_cons, List.mem_append, not_or]
    refine ⟨by decide, ?_, ?_, ?_, fun h => (hw _ h).2 rfl, by decide, hr⟩
    · revert x; decide
    · cases op <;> decide
    · rintro rfl; revert hd; decide
  simp only [write, Bool.false_eq_true, if_false, hsp, wordsFrom, word]
  generalize htag : '[' :: nameOf x :: op.text :: d :: (t ++ ']' :: rest) = tag
  have h1 : steps tag args (startWord none 0) tag = none := by
    conv => lhs; arg 4; rw [← htag]
    have e1 : step tag args (startWord none 0) '[' = some ⟨none, 1, true, none, false, false, false, []⟩ := by
      simp [step, startWord, isName]
    have e2 : step tag args ⟨none, 1, true, none, false, false, false, []⟩ (nameOf x) =
        some ⟨some (nameOf x), 1, true, none, false, false, false, []⟩ := by
      simp [step, subStep, isName_name, noteChar]
    have e3 : step tag args ⟨some (nameOf x), 1, true, none, false, false, false, []⟩ op.text =
        some ⟨some (nameOf x), 1, true, none, decide (op = .more), decide (op = .less), decide (op = .same), []⟩ := by
      cases op <;> simp [step, subStep, noteChar, Op.text, isName]
    simp only [steps, e1, e2, e3, digit_step tag args _ _ _ _ _ _ hd]
    obtain ⟨c, hc, hn⟩ := ht
    exact inner t tag _ _ _ _ _ _ ⟨c, by simp [hc], hn⟩ fun c hc => (hw c hc).1
  rw [h1]
  subst htag
  rfl

example : write false "[a>1b]0000000".toList [.uint 3] = none :=
  bad_decimal_panics [.uint 3] 0 .more '1' (by decide) ['b'] "0000000".toList ⟨'b', by decide, by decide⟩ (by decide) (by decide)

/-- C178. Returning, which has no argument, is written as the tag says. -/
theorem return_written :
    write true "11010110 01011111 00000011 11000000".toList [] = some [0xC0, 0x03, 0x5F, 0xD6] ∧
    write false "0xC3".toList [] = some [0xC3] := by
  constructor <;> decide

end Verif.Bin
