import Verif.Cmdl.Spec
/-! # Lemmas about command lines -/
namespace Verif.Cmdl

theorem split_none (sep : Char) : ∀ s : Str, sep ∉ s → split sep s = [s]
  | [], _ => rfl
  | c :: cs, h => by
    rw [split, if_neg (fun e => h (by simp [e])), split_none sep cs (fun e => h (by simp [e]))]

theorem split_append (sep : Char) : ∀ s t : Str, sep ∉ s → split sep (s ++ sep :: t) = s :: split sep t
  | [], t, _ => by simp [split]
  | c :: cs, t, h => by
    rw [List.cons_append, split, if_neg (fun e => h (by simp [e])),
      split_append sep cs t (fun e => h (by simp [e]))]

theorem digit_not (c : Char) (n : Nat) (hc : ¬ c.isDigit) : c ∉ Nat.toDigits 10 n := by
  intro h
  have := Nat.isDigit_of_mem_toDigits (by decide) (by decide) h
  exact hc this

theorem text_no_space (p : Part) (h : p.Ok) : ' ' ∉ p.text := by
  cases p with
  | lit s => exact h.2.1
  | next => decide
  | nth k =>
    simp only [Part.text, List.mem_cons, List.mem_append, not_or]
    exact ⟨by decide, by decide, digit_not _ _ (by decide), by decide, by decide, by simp⟩

theorem text_no_comma (p : Part) (h : p.Ok) : ',' ∉ p.text := by
  cases p with
  | lit s => exact h.2.2.1
  | next => decide
  | nth k =>
    simp only [Part.text, List.mem_cons, List.mem_append, not_or]
    exact ⟨by decide, by decide, digit_not _ _ (by decide), by decide, by decide, by simp⟩

theorem tag_no_comma : ∀ ps : List Part, (∀ p ∈ ps, p.Ok) → ',' ∉ tagOf ps
  | [], _ => by simp [tagOf]
  | [p], h => by rw [tagOf]; exact text_no_comma p (h p (by simp))
  | p :: q :: ps, h => by
    simp only [tagOf, List.mem_append, List.mem_cons, not_or]
    exact ⟨text_no_comma p (h p (by simp)), by decide, tag_no_comma (q :: ps) (fun x hx => h x (by simp_all))⟩

theorem split_tag : ∀ ps : List Part, ps ≠ [] → (∀ p ∈ ps, p.Ok) →
    split ' ' (tagOf ps) = ps.map Part.text
  | [], h, _ => absurd rfl h
  | [p], _, h => by
    rw [tagOf, split_none _ _ (text_no_space p (h p (by simp)))]; rfl
  | p :: q :: ps, _, h => by
    rw [tagOf, split_append _ _ _ (text_no_space p (h p (by simp))),
      split_tag (q :: ps) (by simp) (fun x hx => h x (by simp_all))]
    · rfl
    · simp

theorem text_ne_nil (p : Part) (h : p.Ok) : p.text ≠ [] := by
  cases p with
  | lit s => exact h.1
  | next => simp [Part.text]
  | nth k => simp [Part.text]

theorem tag_ne_nil : ∀ ps : List Part, ps ≠ [] → (∀ p ∈ ps, p.Ok) → tagOf ps ≠ []
  | [], h, _ => absurd rfl h
  | [p], _, h => by rw [tagOf]; exact text_ne_nil p (h p (by simp))
  | p :: q :: ps, _, _ => by simp [tagOf]

/-! ## Numbers -/

theorem digitChar_digit : ∀ d : Fin 10, (Nat.digitChar d).isDigit = true ∧ (Nat.digitChar d).toNat - 48 = d := by
  decide +kernel

/-- One step of `decimal`. -/
def decStep (acc : Option Nat) (c : Char) : Option Nat :=
  acc.bind fun n => if c.isDigit then some (10 * n + (c.toNat - 48)) else none

theorem dec_fold (n : Nat) : (Nat.toDigits 10 n).foldl decStep (some 0) = some n := by
  induction n using Nat.strongRecOn with
  | _ n ih =>
    by_cases h : n < 10
    · rw [Nat.toDigits_of_lt_base h]
      obtain ⟨a, b⟩ := digitChar_digit ⟨n, h⟩
      simp only at a b
      simp [decStep, a, b]
    · rw [Nat.toDigits_of_base_le (by omega) (by omega), List.foldl_append, ih _ (by omega)]
      obtain ⟨a, b⟩ := digitChar_digit ⟨n % 10, by omega⟩
      simp only at a b
      simp only [List.foldl_cons, List.foldl_nil, decStep, Option.bind_some, a, b, if_true]
      congr 1
      omega

theorem decimal_toDigits (n : Nat) : decimal (Nat.toDigits 10 n) = some n := by
  have : Nat.toDigits 10 n ≠ [] := Nat.toDigits_ne_nil
  rw [decimal, if_neg (by simpa using this)]
  exact dec_fold n

theorem fmtOf_next : fmtOf Part.next.text = .next := rfl

theorem fmtOf_nth (k : Nat) : fmtOf (Part.nth k).text = .nth k := by
  simp only [Part.text, fmtOf]
  have e : (Nat.toDigits 10 k ++ [']', 'v']).reverse = 'v' :: ']' :: (Nat.toDigits 10 k).reverse := by simp
  rw [e, if_pos (by simp [List.isPrefixOf])]
  simp only [List.drop_succ_cons, List.drop_zero, List.reverse_reverse, decimal_toDigits]

theorem percent_text (p : Part) (h : p.Ok) : percent p.text = (match p with | .lit _ => false | _ => true) := by
  cases p with
  | lit s => exact decide_eq_false h.2.2.2.1
  | next => rfl
  | nth k => rfl

theorem placeholder_text (p : Part) (h : p.Ok) :
    placeholder p.text = (match p with | .lit _ => false | _ => true) := by
  cases p with
  | lit s => simp [placeholder, Part.text, h.2.2.2.1, h.2.2.2.2]
  | next => rfl
  | nth k => rfl

theorem trim_text (p : Part) (h : ∀ s, p ≠ .lit s) : trimBraces p.text = p.text := by
  cases p with
  | lit s => exact absurd rfl (h s)
  | next => rfl
  | nth k =>
    simp [trimBraces, Part.text, List.dropWhile]

/-! ## The scanner -/

/-- Which argument the code takes, and its state afterwards. -/
def Part.refer (n : Nat) : Part → Nat × Nat
  | .lit _ => (0, n)
  | .next => (n, n + 1)
  | .nth k => (n + k - 1, n)

/-- When the code finds an argument. -/
def Part.found (len n : Nat) : Part → Prop
  | .lit _ => True
  | .next => n < len
  | .nth k => 1 ≤ k ∧ n + k ≤ len

theorem scan_found (len n : Nat) (p : Part) (h : ∀ s, p ≠ .lit s) (hf : p.found len n) :
    scan len n p.text = some (p.refer n) := by
  cases p with
  | lit s => exact absurd rfl (h s)
  | next => rw [scan, fmtOf_next]; simp only; rw [if_neg (by simp only [Part.found] at hf; omega)]; rfl
  | nth k =>
    obtain ⟨a, b⟩ := hf
    rw [scan, fmtOf_nth]; simp only; rw [if_neg (by omega), if_neg (by omega)]; rfl

theorem scan_missing (len n : Nat) (p : Part) (h : ∀ s, p ≠ .lit s) (hf : ¬ p.found len n) :
    scan len n p.text = none := by
  cases p with
  | lit s => exact absurd rfl (h s)
  | next => rw [scan, fmtOf_next]; simp only; rw [if_pos (by simp only [Part.found] at hf; omega)]
  | nth k =>
    rw [scan, fmtOf_nth]; simp only
    simp only [Part.found] at hf
    by_cases hk : k < 1
    · rw [if_pos hk]
    · rw [if_neg hk, if_pos (by omega)]

theorem refer_lt (len n : Nat) (p : Part) (hf : p.found len n) (h : ∀ s, p ≠ .lit s) :
    (p.refer n).1 < len := by
  cases p with
  | lit s => exact absurd rfl (h s)
  | next => exact hf
  | nth k => obtain ⟨a, b⟩ := hf; simp only [Part.refer]; omega

/-! ## The loops, part by part -/

theorem client_lit {α : Type} (c : Codec α) (args : List (Val α)) (s : Str) (h : (Part.lit s).Ok)
    (rest : List Str) (n : Nat) :
    clientLoop c args (s :: rest) n = (clientLoop c args rest n).map (s :: ·) := by
  have := placeholder_text (.lit s) h
  simp only [Part.text] at this
  rw [clientLoop, this]
  simp only [Bool.false_eq_true, if_false]
  cases clientLoop c args rest n <;> rfl

theorem client_arg {α : Type} (c : Codec α) (args : List (Val α)) (p : Part) (h : ∀ s, p ≠ .lit s)
    (v : Val α) (n : Nat) (hf : p.found args.length n) (hv : args[(p.refer n).1]? = some v)
    (rest : List Str) :
    clientLoop c args (p.text :: rest) n =
      (clientLoop c args rest (p.refer n).2).map (words c v ++ ·) := by
  have ok : p.Ok := by cases p with
    | lit s => exact absurd rfl (h s)
    | next => trivial
    | nth k => trivial
  have e : placeholder p.text = true := by
    rw [placeholder_text p ok]
    cases p with
    | lit s => exact absurd rfl (h s)
    | next => rfl
    | nth k => rfl
  rw [clientLoop, e]
  simp only [if_true]
  rw [trim_text p h, scan_found _ _ p h hf]
  simp only [hv]
  cases clientLoop c args rest (p.refer n).2 <;> rfl

theorem client_missing {α : Type} (c : Codec α) (args : List (Val α)) (p : Part) (h : ∀ s, p ≠ .lit s)
    (n : Nat) (hf : ¬ p.found args.length n) (rest : List Str) :
    clientLoop c args (p.text :: rest) n = none := by
  have ok : p.Ok := by cases p with
    | lit s => exact absurd rfl (h s)
    | next => trivial
    | nth k => trivial
  have e : placeholder p.text = true := by
    rw [placeholder_text p ok]
    cases p with
    | lit s => exact absurd rfl (h s)
    | next => rfl
    | nth k => rfl
  rw [clientLoop, e]
  simp only [if_true]
  rw [trim_text p h, scan_missing _ _ p h hf]

theorem run_lit {α : Type} (c : Codec α) (fn : Fn) (s : Str) (h : (Part.lit s).Ok)
    (rest ws : List Str) (n : Nat) (args : List (Val α)) :
    runLoop c fn (s :: rest) ws n args =
      if ws.tail = [] then .call args else runLoop c fn rest ws.tail n args := by
  have := percent_text (.lit s) h
  simp only [Part.text] at this
  rw [runLoop, this]
  simp only [Bool.false_eq_true, if_false]

theorem run_arg {α : Type} (c : Codec α) (fn : Fn) (p : Part) (h : ∀ s, p ≠ .lit s)
    (rest : List Str) (w : Str) (ws : List Str) (n : Nat) (args : List (Val α)) (v : Val α)
    (hf : p.found fn.params.length n) (hv : readArg c fn (p.refer n).1 p.text w (w :: ws) = some v) :
    runLoop c fn (p.text :: rest) (w :: ws) n args =
      if ws = [] then .call (args.set (p.refer n).1 v)
      else runLoop c fn rest ws (p.refer n).2 (args.set (p.refer n).1 v) := by
  have ok : p.Ok := by cases p with
    | lit s => exact absurd rfl (h s)
    | next => trivial
    | nth k => trivial
  have e : percent p.text = true := by
    rw [percent_text p ok]
    cases p with
    | lit s => exact absurd rfl (h s)
    | next => rfl
    | nth k => rfl
  rw [runLoop, e]
  simp only [if_true]
  rw [scan_found _ _ p h hf]
  simp only [hv]

end Verif.Cmdl
