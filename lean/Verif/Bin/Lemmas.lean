import Verif.Bin.Spec
import Mathlib.Tactic.Ring

/-! # Binary formats: proofs -/
namespace Verif.Bin
open Spec

/-- Outside brackets. -/
def clean (name : Option Char) (bits : Nat) (out : List Bool) : St := ⟨name, bits, false, none, false, false, false, out⟩

theorem steps_append (tag args) (s : St) (p q : Str) :
    steps tag args s (p ++ q) = (steps tag args s p).bind fun s => steps tag args s q := by
  induction p generalizing s with
  | nil => simp [steps]
  | cons c p ih =>
    simp only [List.cons_append, steps]
    cases step tag args s c with
    | none => rfl
    | some s => exact ih s

theorem topBits_eq (k v : Nat) : topBits k v = (List.range k).reverse.map v.testBit := by
  induction k with
  | zero => rfl
  | succ k ih => simp [topBits, List.range_succ, ih]

theorem topBits_mod (k v : Nat) : topBits k (v % 2 ^ k) = (List.range k).reverse.map v.testBit := by
  rw [topBits_eq]
  apply List.map_congr_left
  intro i h
  simp at h
  simp [Nat.testBit_mod_two_pow, h]

/-- The arguments as reflection sees them. -/
def argList (args : Fin 4 → Nat) : List Arg := [.uint (args 0), .uint (args 1), .uint (args 2), .uint (args 3)]

theorem argOf_name (args : Fin 4 → Nat) (x : Fin 4) : argOf (argList args) (nameOf x) = some (args x) := by
  revert x
  intro x
  match x with
  | 0 => rfl
  | 1 => rfl
  | 2 => rfl
  | 3 => rfl

theorem isName_name (x : Fin 4) : isName (nameOf x) = true := by
  match x with
  | 0 => rfl
  | 1 => rfl
  | 2 => rfl
  | 3 => rfl

theorem name_ne_zero (x : Fin 4) : nameOf x ≠ '0' := by
  match x with
  | 0 => decide
  | 1 => decide
  | 2 => decide
  | 3 => decide

theorem name_ne_one (x : Fin 4) : nameOf x ≠ '1' := by
  match x with
  | 0 => decide
  | 1 => decide
  | 2 => decide
  | 3 => decide

theorem name_inj {x y : Fin 4} : nameOf x = nameOf y → x = y := by
  revert x y; decide

theorem zeros_steps (tag args) (name : Option Char) (out : List Bool) (k b : Nat) (hb : 0 < b) :
    steps tag args ⟨name, b, true, none, false, false, false, out⟩ (List.replicate k '0') =
      some ⟨name, b + k, true, none, false, false, false, out⟩ := by
  induction k generalizing b with
  | zero => rfl
  | succ k ih =>
    simp only [List.replicate_succ, steps]
    have : step tag args ⟨name, b, true, none, false, false, false, out⟩ '0' =
        some ⟨name, b + 1, true, none, false, false, false, out⟩ := by
      simp [step, hb, subStep, isName]
    rw [this]
    simp only
    rw [ih (b + 1) (by omega)]
    simp; omega

theorem field_steps (tag) (args : Fin 4 → Nat) (name : Option Char) (bits : Nat) (out : List Bool) (x : Fin 4) (k : Nat)
    (hk : 0 < k) :
    steps tag (argList args) (clean name bits out) (Item.text (.field x k)) =
      some (clean (some (nameOf x)) 0 (out ++ (List.range k).reverse.map (args x).testBit)) := by
  have h1 : step tag (argList args) (clean name bits out) '[' =
      some ⟨name, 1, true, none, false, false, false, out⟩ := by
    simp [step, clean, isName]
  have h2 : step tag (argList args) ⟨name, 1, true, none, false, false, false, out⟩ (nameOf x) =
      some ⟨some (nameOf x), 1, true, none, false, false, false, out⟩ := by
    simp [step, subStep, isName_name, noteChar]
  simp only [Item.text, List.cons_append, steps, h1, h2]
  rw [steps_append, zeros_steps _ _ _ _ _ _ (by omega)]
  have h3 : 1 < 1 + k := by omega
  have h4 : 0 < 1 + k := by omega
  simp only [Option.bind_some, steps]
  have : step tag (argList args) ⟨some (nameOf x), 1 + k, true, none, false, false, false, out⟩ ']' =
      some (clean (some (nameOf x)) 0 (out ++ (List.range k).reverse.map (args x).testBit)) := by
    have e : 1 + k - 1 = k := by omega
    simp [step, h4, subStep, isName, closeSub, argOf_name, h3, e, topBits_mod, closed, clean, hk]
  rw [this]

theorem digit_cases {c : Char} (h : c.isDigit = true) (hz : c ≠ '0') : '1' ≤ c ∧ c ≤ '9' := by
  simp [Char.isDigit] at h
  have h1 : c.toNat ≠ 48 := fun e => hz (Char.ext (UInt32.toNat_inj.1 (by simpa using e)))
  have h0 : 48 ≤ c.toNat := by
    have := UInt32.le_iff_toNat_le.1 h.1; simpa using this
  have h9 : c.toNat ≤ 57 := by
    have := UInt32.le_iff_toNat_le.1 h.2; simpa using this
  constructor
  · show '1'.val ≤ c.val
    rw [UInt32.le_iff_toNat_le]
    show 49 ≤ c.toNat
    omega
  · show c.val ≤ '9'.val
    rw [UInt32.le_iff_toNat_le]
    show c.toNat ≤ 57
    omega

theorem digit_not_name {c : Char} (h : '1' ≤ c ∧ c ≤ '9') :
    isName c = false ∧ c ≠ ']' ∧ c ≠ '0' ∧ c ≠ '<' ∧ c ≠ '>' ∧ c ≠ '=' := by
  refine ⟨?_, ?_, ?_, ?_, ?_, ?_⟩
  · rw [Bool.eq_false_iff]
    intro hn
    simp [isName] at hn
    rcases hn with ((rfl | rfl) | rfl) | rfl <;> revert h <;> decide
  all_goals (rintro rfl; revert h; decide)

theorem digit_step (tag args) (name : Option Char) (check : Option Str) (m l e : Bool) (out : List Bool) {c : Char}
    (h : '1' ≤ c ∧ c ≤ '9') :
    step tag args ⟨name, 1, true, check, m, l, e, out⟩ c =
      some ⟨name, 1, true, some (check.getD [] ++ [c]), m, l, e, out⟩ := by
  obtain ⟨h1, h2, h3, h4, h5, h6⟩ := digit_not_name h
  simp only [step, subStep, h1, h2, h3, h4, h5, h6, h]
  cases check <;> simp

theorem digits_steps (tag args) (name : Option Char) (check : Option Str) (m l e : Bool) (out : List Bool) (ds : Str)
    (h : ∀ c ∈ ds, '1' ≤ c ∧ c ≤ '9') (hne : ds ≠ []) :
    steps tag args ⟨name, 1, true, check, m, l, e, out⟩ ds =
      some ⟨name, 1, true, some (check.getD [] ++ ds), m, l, e, out⟩ := by
  induction ds generalizing check with
  | nil => exact absurd rfl hne
  | cons c ds ih =>
    simp only [steps, digit_step tag args name check m l e out (h c (by simp))]
    by_cases hd : ds = []
    · subst hd; simp [steps]
    · rw [ih _ (fun c hc => h c (by simp [hc])) hd]
      simp

theorem decFrom_eq (ds : Str) (acc : Nat) (h : ∀ c ∈ ds, '1' ≤ c ∧ c ≤ '9')
    (hb : ds.foldl (fun n c => 10 * n + (c.toNat - 48)) acc < 2 ^ 64) :
    decFrom acc ds = some (ds.foldl (fun n c => 10 * n + (c.toNat - 48)) acc) := by
  induction ds generalizing acc with
  | nil => simp only [List.foldl_nil] at hb; simp only [decFrom, if_pos hb, List.foldl_nil]
  | cons c ds ih =>
    have hc := h c (by simp)
    have h0 : '0' ≤ c ∧ c ≤ '9' := ⟨Std.le_trans (by decide) hc.1, hc.2⟩
    simp only [decFrom, h0, List.foldl_cons]
    exact ih _ (fun c hc => h c (by simp [hc])) hb

theorem test_steps (tag) (args : Fin 4 → Nat) (name : Option Char) (bits : Nat) (out : List Bool) (x : Fin 4) (op : Op)
    (ds : Str) (hne : ds ≠ []) (hd : ∀ c ∈ ds, '1' ≤ c ∧ c ≤ '9') (hb : decimal ds < 2 ^ 64) :
    steps tag (argList args) (clean name bits out) (Item.text (.test x op ds)) =
      some (clean (some (nameOf x)) 0 (out ++ [op.holds (args x) (decimal ds)])) := by
  have h1 : step tag (argList args) (clean name bits out) '[' =
      some ⟨name, 1, true, none, false, false, false, out⟩ := by
    simp [step, clean, isName]
  have h2 : step tag (argList args) ⟨name, 1, true, none, false, false, false, out⟩ (nameOf x) =
      some ⟨some (nameOf x), 1, true, none, false, false, false, out⟩ := by
    simp [step, subStep, isName_name, noteChar]
  have h3 : step tag (argList args) ⟨some (nameOf x), 1, true, none, false, false, false, out⟩ op.text =
      some ⟨some (nameOf x), 1, true, none, decide (op = .more), decide (op = .less), decide (op = .same), out⟩ := by
    cases op <;> simp [step, subStep, noteChar, Op.text, isName]
  have h4 : step tag (argList args) ⟨some (nameOf x), 1, true, some ds, decide (op = .more), decide (op = .less), decide (op = .same), out⟩ ']' =
      some (clean (some (nameOf x)) 0 (out ++ [op.holds (args x) (decimal ds)])) := by
    have e : decFrom 0 ds = some (decimal ds) := decFrom_eq ds 0 hd hb
    simp only [step, subStep, isName, closeSub, argOf_name, e]
    cases op <;> simp [closed, clean, Op.holds] <;> congr
  simp only [Item.text, List.cons_append, steps, h1, h2, h3]
  rw [steps_append, digits_steps _ _ _ _ _ _ _ _ _ hd hne]
  simp only [Option.getD_none, List.nil_append, Option.bind_some, steps, h4]

theorem letter_steps (tag) (args : Fin 4 → Nat) (name : Option Char) (bits : Nat) (out : List Bool) (x : Fin 4) (size : Nat)
    (hs : sizeOf tag (nameOf x) = size) (h64 : size < 64) :
    steps tag (argList args) (clean name bits out) (Item.text (.letter x)) =
      some (clean (some (nameOf x)) ((if name = some (nameOf x) then bits else 0) + 1)
        (out ++ [letterBit (args x) size (if name = some (nameOf x) then bits else 0)])) := by
  have : ¬ 64 ≤ size := by omega
  simp [Item.text, steps, step, clean, isName_name, name_ne_zero, name_ne_one, argOf_name, hs, this]

theorem bit_steps (tag args) (name : Option Char) (bits : Nat) (out : List Bool) (b : Bool) :
    steps tag args (clean name bits out) (Item.text (.bit b)) = some (clean name bits (out ++ [b])) := by
  cases b <;> simp [Item.text, steps, step, clean]

/-- The run of letters so far is what the bits count. -/
def Inv (name : Option Char) (bits : Nat) (seen rest : List Item) : Prop :=
  ∀ x, .letter x ∈ rest → (if name = some (nameOf x) then bits else 0) = seen.count (.letter x)

/-- What the proofs need of one item. -/
def ItemOk (size : Fin 4 → Nat) (args : Fin 4 → Nat) : Item → Prop
  | .bit _ => True
  | .letter x => size x < 64 ∧ args x < 2 ^ size x
  | .field _ k => 0 < k
  | .test _ _ ds => ds ≠ [] ∧ (∀ c ∈ ds, '1' ≤ c ∧ c ≤ '9') ∧ decimal ds < 2 ^ 64

/-- Runs, between what was seen and what is to come. -/
def RunsAt (seen rest : List Item) : Prop :=
  ∀ before i after, rest = before ++ i :: after → (∀ b, i ≠ .bit b) →
    ∀ x, .letter x ∈ seen ++ before → .letter x ∈ after → i = .letter x

theorem RunsAt.tail {seen : List Item} {i : Item} {rest : List Item} (h : RunsAt seen (i :: rest)) :
    RunsAt (seen ++ [i]) rest := by
  intro before j after e hb x h1 h2
  refine h (i :: before) j after (by rw [e]; rfl) hb x ?_ h2
  simpa using h1

theorem letterBit_eq (v size k : Nat) (h : v < 2 ^ size) (hk : k ≤ size) :
    letterBit v size k = v.testBit (size - k) := by
  simp [letterBit, hk, Nat.mod_eq_of_lt h]

/-- One item from a good state to a good state. -/
theorem item_steps (tag) (args : Fin 4 → Nat) (size : Fin 4 → Nat) (i : Item) (rest : List Item)
    (seen : List Item) (name : Option Char) (bits : Nat) (out : List Bool)
    (hs : ∀ x, i = .letter x → sizeOf tag (nameOf x) = size x)
    (hok : ItemOk size args i) (hinv : Inv name bits seen (i :: rest)) (hrun : RunsAt seen (i :: rest))
    (hcount : ∀ x, i = .letter x → seen.count (.letter x) ≤ size x) :
    ∃ name' bits', steps tag (argList args) (clean name bits out) i.text =
        some (clean name' bits' (out ++ i.bits (fun x => size x + 1) args seen)) ∧
      Inv name' bits' (seen ++ [i]) rest := by
  have hnot : (∀ b, i ≠ .bit b) → ∀ x, .letter x ∈ rest → i ≠ .letter x → seen.count (.letter x) = 0 := by
    intro hb x hx hne
    rw [List.count_eq_zero]
    intro hin
    exact hne (hrun [] i rest rfl hb x (by simpa using hin) hx)
  cases i with
  | bit b =>
    refine ⟨name, bits, bit_steps _ _ _ _ _ _, ?_⟩
    intro x hx
    simpa [List.count_append] using hinv x (by simp [hx])
  | letter y =>
    refine ⟨some (nameOf y), seen.count (.letter y) + 1, ?_, ?_⟩
    · rw [letter_steps tag args name bits out y (size y) (hs y rfl) hok.1]
      rw [hinv y (by simp), letterBit_eq _ _ _ hok.2 (hcount y rfl)]
      simp [Item.bits]
    · intro x hx
      by_cases h : x = y
      · subst h
        simp [List.count_append]
      · have h1 : nameOf y ≠ nameOf x := fun e => h (name_inj e).symm
        have h2 := hnot (by simp) x hx (by simpa using Ne.symm h)
        have h3 : Item.letter y ≠ Item.letter x := by simpa using Ne.symm h
        simp [h1, List.count_append, h2, h3]
  | field y k =>
    refine ⟨_, _, field_steps _ _ _ _ _ _ _ hok, ?_⟩
    intro x hx
    simp [List.count_append, hnot (by simp) x hx (by simp)]
  | test y op ds =>
    refine ⟨_, _, test_steps _ _ _ _ _ _ _ _ hok.1 hok.2.1 hok.2.2, ?_⟩
    intro x hx
    simp [List.count_append, hnot (by simp) x hx (by simp)]

/-- All the items of a word. -/
theorem items_steps (tag) (args : Fin 4 → Nat) (size : Fin 4 → Nat) (is rest : List Item)
    (seen : List Item) (name : Option Char) (bits : Nat) (out : List Bool)
    (hs : ∀ x, .letter x ∈ is → sizeOf tag (nameOf x) = size x)
    (hok : ∀ i ∈ is, ItemOk size args i) (hinv : Inv name bits seen (is ++ rest)) (hrun : RunsAt seen (is ++ rest))
    (hcount : ∀ x, .letter x ∈ is → (seen ++ is ++ rest).count (.letter x) ≤ size x + 1) :
    ∃ name' bits', steps tag (argList args) (clean name bits out) (is.flatMap Item.text) =
        some (clean name' bits' (out ++ itemsBits (fun x => size x + 1) args seen is)) ∧
      Inv name' bits' (seen ++ is) rest := by
  induction is generalizing seen name bits out with
  | nil => exact ⟨name, bits, by simp [steps, itemsBits], by simpa using hinv⟩
  | cons i is ih =>
    obtain ⟨n1, b1, e1, inv1⟩ := item_steps tag args size i (is ++ rest) seen name bits out
      (fun x e => hs x (by simp [e])) (hok i (by simp)) hinv hrun (by
        rintro x rfl
        have := hcount x (by simp)
        simp [List.count_append] at this
        omega)
    obtain ⟨n2, b2, e2, inv2⟩ := ih (seen ++ [i]) n1 b1 _ (fun x e => hs x (by simp [e]))
      (fun j hj => hok j (by simp [hj])) inv1 hrun.tail (by
        intro x hx
        have := hcount x (by simp [hx])
        simpa using this)
    refine ⟨n2, b2, ?_, by simpa using inv2⟩
    simp only [List.flatMap_cons]
    rw [steps_append, e1]
    simp only [Option.bind_some]
    rw [e2]
    simp [itemsBits]

theorem byteOf_from (bs : List Bool) (n : Nat) :
    bs.foldl (fun n b => 2 * n + b.toNat) n = n * 2 ^ bs.length + value bs := by
  induction bs generalizing n with
  | nil => simp [value]
  | cons b bs ih =>
    simp only [List.foldl_cons, ih, value, List.length_cons, Nat.pow_succ]
    cases b <;> simp <;> ring

theorem byteOf_eq (bs : List Bool) : byteOf bs = value bs := by
  simpa [byteOf] using byteOf_from bs 0

theorem itemsBits_length (w : Fin 4 → Nat) (args : Fin 4 → Nat) (seen is : List Item) :
    (itemsBits w args seen is).length = (is.map Item.size).sum := by
  induction is generalizing seen with
  | nil => rfl
  | cons i is ih =>
    simp only [itemsBits, List.length_append, ih, List.map_cons, List.sum_cons]
    cases i <;> simp [Item.bits, Item.size]

/-- The digits of the table. -/
def hexDigits : List Char := hexTable.map (·.1)

theorem hex_mem {c : Char} (h : (hexValue c).isSome = true) : c ∈ hexDigits := by
  obtain ⟨v, hv⟩ := Option.isSome_iff_exists.1 h
  obtain ⟨l1, l2, h, -⟩ := List.lookup_eq_some_iff.1 hv
  exact List.mem_map.2 ⟨(c, v), by rw [h]; simp, rfl⟩

theorem hex_digit {c : Char} (h : c ∈ hexDigits) : hexDigit c = some ((hexValue c).getD 0) := by
  revert c; decide

theorem hex_small {c : Char} (h : c ∈ hexDigits) : (hexValue c).getD 0 < 16 := by
  revert c; decide

theorem hex_plain {c : Char} (h : c ∈ hexDigits) : c ≠ ' ' ∧ ∀ x, c ≠ nameOf x := by
  revert c; decide

theorem parseHex_eq {h l : Char} (h1 : (hexValue h).isSome = true) (h2 : (hexValue l).isSome = true) :
    parseHex [h, l] = some (16 * (hexValue h).getD 0 + (hexValue l).getD 0) := by
  have a := hex_small (hex_mem h1)
  have b := hex_small (hex_mem h2)
  simp only [parseHex, hexFrom, hex_digit (hex_mem h1), hex_digit (hex_mem h2)]
  rw [if_pos (by omega)]
  simp

/-- The characters of an item. -/
theorem item_chars {size args} {i : Item} (h : ItemOk size args i) : ' ' ∉ i.text ∧ 'x' ∉ i.text := by
  have hn : ∀ x, ' ' ≠ nameOf x ∧ 'x' ≠ nameOf x := by decide
  cases i with
  | bit b => cases b <;> decide
  | letter x => simp [Item.text, hn x]
  | field x k =>
    simp [Item.text, hn x, List.mem_replicate]
  | test x op ds =>
    have h1 : ' ' ∉ ds := fun hm => absurd (h.2.1 _ hm) (by decide)
    have h2 : 'x' ∉ ds := fun hm => absurd (h.2.1 _ hm) (by decide)
    cases op <;> simp [Item.text, hn x, h1, h2, Op.text]

/-- A word as the proofs need it. -/
def WordOk (size args : Fin 4 → Nat) : Word → Prop
  | .hex h l => (hexValue h).isSome = true ∧ (hexValue l).isSome = true
  | .bits is => (is.map Item.size).sum = 8 ∧ ∀ i ∈ is, ItemOk size args i

theorem word_chars {size args} {w : Word} (h : WordOk size args w) : ' ' ∉ w.text := by
  cases w with
  | hex a b =>
    have h1 := (hex_plain (hex_mem h.1)).1
    have h2 := (hex_plain (hex_mem h.2)).1
    simp [Word.text, h1.symm, h2.symm]
  | bits is =>
    simp only [Word.text, List.mem_flatMap, not_exists, not_and]
    exact fun i hi => (item_chars (h.2 i hi)).1

theorem words_one (w : Str) (h : ' ' ∉ w) : words w = [w] := by
  induction w with
  | nil => rfl
  | cons c w ih =>
    simp only [List.mem_cons, not_or] at h
    simp [words, ih h.2, Ne.symm h.1]

theorem words_cons (w t : Str) (h : ' ' ∉ w) : words (w ++ ' ' :: t) = w :: words t := by
  induction w with
  | nil => simp [words]
  | cons c w ih =>
    simp only [List.mem_cons, not_or] at h
    simp [words, ih h.2, Ne.symm h.1]

theorem words_tag {size args} (ws : List Word) (hne : ws ≠ []) (h : ∀ w ∈ ws, WordOk size args w) :
    words (tagText ws) = ws.map Word.text := by
  induction ws with
  | nil => exact absurd rfl hne
  | cons w ws ih =>
    cases ws with
    | nil => simpa [tagText] using words_one _ (word_chars (h w (by simp)))
    | cons v ws =>
      simp only [tagText]
      rw [words_cons _ _ (word_chars (h w (by simp))), ih (by simp) (fun u hu => h u (by simp [hu]))]
      rfl

theorem word_bits (tag args name bits) (w : Str) (h : 'x' ∉ w) :
    word tag args name bits w =
      match steps tag args (startWord name bits) w with
      | none => none
      | some s => if s.out.length = 8 then some (byteOf s.out, s.name, s.bits) else none := by
  unfold word
  split
  · exact absurd (by simp) h
  · rfl

/-- The words one after the other. -/
theorem words_steps (tag) (args : Fin 4 → Nat) (size : Fin 4 → Nat) (ws : List Word)
    (seen : List Item) (name : Option Char) (bits : Nat)
    (hs : ∀ x, .letter x ∈ items ws → sizeOf tag (nameOf x) = size x)
    (hok : ∀ w ∈ ws, WordOk size args w) (hinv : Inv name bits seen (items ws)) (hrun : RunsAt seen (items ws))
    (hcount : ∀ x, .letter x ∈ items ws → (seen ++ items ws).count (.letter x) ≤ size x + 1) :
    wordsFrom tag (argList args) name bits (ws.map Word.text) =
      some (bytes (fun x => size x + 1) args seen ws) := by
  induction ws generalizing seen name bits with
  | nil => rfl
  | cons w ws ih =>
    have hw := hok w (by simp)
    cases w with
    | hex h l =>
      simp only [List.map_cons, wordsFrom, Word.text, word, parseHex_eq hw.1 hw.2]
      rw [ih seen name bits hs (fun v hv => hok v (by simp [hv])) hinv hrun hcount]
      rfl
    | bits is =>
      have hx : 'x' ∉ is.flatMap Item.text := by
        simp only [List.mem_flatMap, not_exists, not_and]
        exact fun i hi => (item_chars (hw.2 i hi)).2
      obtain ⟨n1, b1, e1, inv1⟩ := items_steps tag args size is (items ws) seen name bits []
        (fun x e => hs x (by simp [items, e])) hw.2 hinv hrun (fun x e => by
          simpa [items] using hcount x (by simp [items, e]))
      have hrun' : RunsAt (seen ++ is) (items ws) := by
        intro before j after e hb x h1 h2
        refine hrun (is ++ before) j after (by simp [items, e]) hb x ?_ h2
        simpa using h1
      simp only [List.map_cons, wordsFrom, Word.text]
      rw [word_bits _ _ _ _ _ hx]
      have e1' : steps tag (argList args) (startWord name bits) (is.flatMap Item.text) = _ := e1
      rw [e1']
      simp only [clean, List.nil_append, itemsBits_length, hw.1, if_true]
      rw [ih (seen ++ is) n1 b1 (fun x e => hs x (by simp [items, e])) (fun v hv => hok v (by simp [hv])) inv1 hrun'
        (fun x e => by simpa [items] using hcount x (by simp [items, e]))]
      simp [bytes, byteOf_eq]

/-- How often a letter occurs in an item. -/
theorem count_item {size args} {i : Item} (h : ItemOk size args i) (x : Fin 4)
    (ha : i.bracket ≠ some x) :
    i.text.count (nameOf x) = if i = .letter x then 1 else 0 := by
  have hn : ∀ x, '[' ≠ nameOf x ∧ ']' ≠ nameOf x ∧ '0' ≠ nameOf x ∧ '1' ≠ nameOf x ∧ '>' ≠ nameOf x ∧
    '<' ≠ nameOf x ∧ '=' ≠ nameOf x := by decide
  have hne : ∀ y, y ≠ x → nameOf y ≠ nameOf x := fun y h e => h (name_inj e)
  cases i with
  | bit b => cases b <;> simp [Item.text, hn x]
  | letter y =>
    by_cases h : y = x
    · subst h; simp [Item.text]
    · simp [Item.text, hne y h, h]
  | field y k =>
    simp [Item.text, hn x, hne y (by simpa [Item.bracket] using ha), List.count_replicate, List.count_cons, List.count_append]
  | test y op ds =>
    have h1 : ds.count (nameOf x) = 0 := by
      rw [List.count_eq_zero]
      intro hm
      have := digit_not_name (h.2.1 _ hm)
      rw [isName_name] at this
      exact absurd this.1 (by decide)
    cases op <;> simp [Item.text, hn x, hne y (by simpa [Item.bracket] using ha), Op.text, List.count_cons, List.count_append, h1]

theorem count_items {size args} (is : List Item) (h : ∀ i ∈ is, ItemOk size args i) (x : Fin 4)
    (ha : ∀ i ∈ is, i.bracket ≠ some x) :
    (is.flatMap Item.text).count (nameOf x) = is.count (.letter x) := by
  induction is with
  | nil => rfl
  | cons i is ih =>
    rw [List.flatMap_cons, List.count_append, count_item (h i (by simp)) x (ha i (by simp)),
      ih (fun j hj => h j (by simp [hj])) (fun j hj => ha j (by simp [hj])), List.count_cons]
    simp [Nat.add_comm]

theorem count_word {size args} {w : Word} (h : WordOk size args w) (x : Fin 4)
    (ha : ∀ i ∈ items [w], i.bracket ≠ some x) :
    w.text.count (nameOf x) = (items [w]).count (.letter x) := by
  cases w with
  | hex a b =>
    have h1 := (hex_plain (hex_mem h.1)).2 x
    have h2 := (hex_plain (hex_mem h.2)).2 x
    have hn : ∀ x, '0' ≠ nameOf x ∧ 'x' ≠ nameOf x := by decide
    simp [Word.text, h1, h2, hn x, items]
  | bits is =>
    simp only [items, List.append_nil] at ha ⊢
    exact count_items is h.2 x ha

theorem items_cons (w : Word) (ws : List Word) : items (w :: ws) = items [w] ++ items ws := by
  cases w <;> simp [items]

theorem count_tag {size args} (ws : List Word) (h : ∀ w ∈ ws, WordOk size args w) (x : Fin 4)
    (ha : ∀ i ∈ items ws, i.bracket ≠ some x) :
    (tagText ws).count (nameOf x) = (items ws).count (.letter x) := by
  induction ws with
  | nil => rfl
  | cons w ws ih =>
    rw [items_cons] at ha ⊢
    have hw := count_word (h w (by simp)) x (fun i hi => ha i (by simp [hi]))
    cases ws with
    | nil => simpa [tagText, items] using hw
    | cons v ws =>
      have hn : ∀ x, ' ' ≠ nameOf x := by decide
      simp only [tagText, List.count_append, hw]
      rw [List.count_cons_of_ne (hn x), ih (fun u hu => h u (by simp [hu])) (fun i hi => ha i (by simp [hi]))]

end Verif.Bin
