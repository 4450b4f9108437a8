import Verif.Zgo.LitLemmas

/-!
# zgo literals: the properties

* C162 — an integer literal compiles to a Zig literal of the same value.
* C163 — a rune or string literal compiles to a Zig literal of the same value.
* C164 — a floating-point or imaginary literal compiles to a Zig number of the same value.
-/
namespace Verif.Zgo.Lit
open Spec

/-! ## C162 -/

/-- C162, the full statement: every integer literal of Go, of whatever base and with whatever underscores,
is written as a Zig literal with the same value. -/
def IntegerLiteralsKeepTheirValue : Prop :=
  ∀ (s : List Char) (n : Nat), goInt s = some n → zigInt (emitInt s) = some n

/-- C162, the part that holds: every literal of any length without a capital base prefix and without a
second leading zero. -/
theorem integer_literal_partial (s : List Char) (n : Nat) (h : goInt s = some n)
    (h1 : capitalPrefix s = false) (h2 : doubleZero s = false) : zigInt (emitInt s) = some n :=
  int_literal h h1 h2

example : goInt ['0', 'x', '_', '1', 'F', '_', 'f', 'f'] = some 8191 ∧
    emitInt ['0', 'x', '_', '1', 'F', '_', 'f', 'f'] = ['0', 'x', '1', 'F', 'f', 'f'] ∧
    goInt ['0', '_', '1', '7'] = some 15 ∧ emitInt ['0', '_', '1', '7'] = ['0', 'o', '1', '7'] ∧
    goInt ['1', '_', '0', '0', '0'] = some 1000 := by decide

/-- C162 fails for every literal with a capital base prefix: Zig has no such literal. -/
theorem capital_prefix_fails (c : Char) (rest : List Char) (h : capitalPrefix ('0' :: c :: rest) = true) :
    zigInt (emitInt ('0' :: c :: rest)) = none := by
  simp only [capitalPrefix, Bool.or_eq_true, beq_iff_eq] at h
  rcases h with (rfl | rfl) | rfl <;>
  · rw [emitInt_other (by decide), drop_cons (by decide), drop_cons (by decide)]
    simp [zigInt]

/-- C162 fails for every old-style octal literal with a second zero: `007` is written as it stands, which is
not a Zig literal. -/
theorem double_zero_fails (rest : List Char) : zigInt (emitInt ('0' :: '0' :: rest)) = none := by
  rw [emitInt_other (by decide), drop_cons (by decide), drop_cons (by decide)]
  simp [zigInt]

theorem integer_literal_fails : ¬ IntegerLiteralsKeepTheirValue := by
  intro h
  have := h ['0', '0', '7'] 7 (by decide)
  rw [double_zero_fails] at this
  cases this

example : goInt ['0', '0', '7'] = some 7 ∧ goInt ['0', 'X', '1', 'F'] = some 31 := by decide

/-! ## C163 -/

/-- C163: a rune literal compiles to a decimal number of the same value, for every rune. -/
theorem rune_literal_keeps_value (n : Nat) : zigInt (emitDecimal n) = some n := rune_literal n

example : emitDecimal 128512 = ['1', '2', '8', '5', '1', '2'] := by
  simp [emitDecimal]

/-- C163, strings: Zig reads back exactly the bytes of the Go string if and only if every character of it is
printable or has an escape sequence that Zig knows too. Otherwise Zig reports an error: no string is ever
silently changed. -/
theorem string_literal_partial (isPrint : Nat → Bool) (enc : Nat → List Nat) (ha : Ascii isPrint enc)
    (v : List Piece) (hw : ∀ b, .bad b ∈ v → b < 256) :
    ((∀ p ∈ v, Readable isPrint p) → zigLiteral enc (emitString isPrint v) = some (bytesOf enc v)) ∧
    ((∃ p ∈ v, ¬ Readable isPrint p) → zigLiteral enc (emitString isPrint v) = none) := by
  unfold emitString zigLiteral
  constructor
  · intro h
    apply zig_body ha v _ h
    have := body_length isPrint v
    simp only [List.length_append, List.length_cons, List.length_nil]; omega
  · intro h
    exact zig_body_none ha v _ hw h

/-- The full statement of C163 for strings. -/
def StringLiteralsKeepTheirValue (isPrint : Nat → Bool) (enc : Nat → List Nat) : Prop :=
  ∀ v : List Piece, (∀ b, .bad b ∈ v → b < 256) → zigLiteral enc (emitString isPrint v) = some (bytesOf enc v)

/-- C163 fails: the bell character is written `\a`, which is not a Zig escape sequence. -/
theorem string_literal_bell_fails (isPrint : Nat → Bool) (enc : Nat → List Nat) (ha : Ascii isPrint enc) :
    ¬ StringLiteralsKeepTheirValue isPrint enc := by
  intro h
  have h1 := h [.rune 7] (by simp)
  have h2 := (string_literal_partial isPrint enc ha [.rune 7] (by simp)).2
    ⟨_, List.mem_cons_self, by
      simp only [Readable, not_or]
      refine ⟨fun hp => ?_, by omega⟩
      have := (ha.print 7 (by decide)).1 hp
      omega⟩
  rw [h1] at h2; cases h2

/-- C163 fails for every character beyond ASCII that is not printable, such as the soft hyphen (U+00AD) or
the zero-width space (U+200B): written `\u00ad`, where Zig wants `\u{ad}`. -/
theorem string_literal_unicode_fails (isPrint : Nat → Bool) (enc : Nat → List Nat) (ha : Ascii isPrint enc)
    (r : Nat) (hr : 128 ≤ r) (hp : isPrint r = false) (before after : List Piece)
    (hw : ∀ b, .bad b ∈ before ++ after → b < 256) :
    zigLiteral enc (emitString isPrint (before ++ .rune r :: after)) = none := by
  apply (string_literal_partial isPrint enc ha _ _).2
  · refine ⟨.rune r, by simp, ?_⟩
    simp only [Readable, not_or, hp]
    exact ⟨by simp, by omega⟩
  · intro b hb
    apply hw
    simp only [List.mem_append, List.mem_cons, reduceCtorEq, false_or] at hb ⊢
    exact hb

/-- ASCII alone, to see the hypotheses met. -/
def asciiPrint (r : Nat) : Bool := decide (32 ≤ r ∧ r < 127)

def asciiEnc (r : Nat) : List Nat := [r]

theorem ascii_ok : Ascii asciiPrint asciiEnc where
  print r h := by simp only [asciiPrint, decide_eq_true_eq]; omega
  enc r _ := rfl

example : emitString asciiPrint [.rune 65, .rune 34, .rune 10, .rune 1, .bad 255] =
    [34, 65, 92, 34, 92, 110, 92, 120, 48, 49, 92, 120, 102, 102, 34] := by decide

example : ∀ p ∈ [Piece.rune 65, .rune 34, .rune 10, .rune 1, .bad 255], Readable asciiPrint p := by
  intro p hp
  simp only [List.mem_cons, List.not_mem_nil, or_false] at hp
  rcases hp with rfl | rfl | rfl | rfl | rfl
  · exact Or.inl (by decide)
  · exact Or.inl (by decide)
  · exact Or.inr (by omega)
  · exact Or.inr (by omega)
  · show 255 < 256; decide

/-! ## C164 -/

theorem text_length {f : Decimal} (h : f.goFloat) : 2 ≤ f.text.length := by
  obtain ⟨h1, h2, h3⟩ := h
  simp only [Decimal.text, List.length_append, List.length_map]
  cases he : f.exp with
  | some e =>
    obtain ⟨cap, sign, ds⟩ := e
    have := h3 cap sign ds he
    have : 1 ≤ ds.length := by
      cases ds with
      | nil => exact absurd rfl this
      | cons => simp
    simp only [expText, List.length_cons, List.length_append, List.length_map]
    omega
  | none =>
    cases hf : f.frac with
    | none => simp [he, hf] at h1
    | some ds =>
      rcases h2 with h2 | ⟨d, rest, h2⟩
      · have : 1 ≤ f.whole.length := by
          cases hw : f.whole with
          | nil => exact absurd hw h2
          | cons => simp
        simp only [fracText, expText, List.length_cons, List.length_map]
        omega
      · rw [hf] at h2
        injection h2 with h2
        subst h2
        simp only [fracText, expText, List.length_cons, List.length_map]
        omega

/-- C164, the full statement for decimal floating-point literals: what is written is a Zig number of the
same value. -/
def FloatLiteralsKeepTheirValue : Prop :=
  ∀ f : Decimal, f.goFloat → ∃ g : Decimal, emitFloat f.text = some g.text ∧ g.zigNumber ∧ g.value = f.value

/-- A text is that of at most one number, so the `g` above is unique. -/
theorem text_determines (f g : Decimal) (h : f.text = g.text) : f = g := text_inj h

/-- C164, the part that holds: every literal with a decimal point or a digit other than zero before the
exponent. -/
theorem float_literal_partial (f : Decimal) (h : f.goFloat) (hgood : f.frac ≠ none ∨ ∃ d ∈ f.whole, d ≠ 0) :
    ∃ g : Decimal, emitFloat f.text = some g.text ∧ g.zigNumber ∧ g.value = f.value := by
  have hlen := text_length h
  refine ⟨adjusted f, ?_, adjusted_zig f h.2.2, adjusted_value f⟩
  unfold emitFloat
  rw [adjustFloat_core _ (by omega), trimI_text, core_text f hlen hgood h.2.2]
  simp [drop_text]

example : (⟨[0, 0, 1, 2], some [], none⟩ : Decimal).goFloat ∧
    emitFloat (⟨[0, 0, 1, 2], some [], none⟩ : Decimal).text = some ['1', '2', '.', '0'] ∧
    (⟨[], some [5], some (false, some true, [3])⟩ : Decimal).goFloat ∧
    emitFloat (⟨[], some [5], some (false, some true, [3])⟩ : Decimal).text = some ['0', '.', '5', 'e', '-', '3'] := by
  refine ⟨⟨by simp, by simp, by simp⟩, by decide, ⟨by simp, by simp, ?_⟩, by decide⟩
  intro _ _ _ h; simp at h; rw [← h.2.2]; simp

/-- C164 fails for every zero written with an exponent and no point: `0e1` becomes `e1`, which Zig does not
read as a number at all. -/
theorem zero_with_exponent_fails (f : Decimal) (h : f.goFloat) (hf : f.frac = none) (hz : ∀ d ∈ f.whole, d = 0) :
    ∃ out, emitFloat f.text = some out ∧ ∀ g : Decimal, g.zigNumber → g.text ≠ out := by
  have hlen := text_length h
  obtain ⟨e, he⟩ : ∃ e, f.exp = some e := by
    cases hx : f.exp with
    | none => rcases h.1 with h1 | h1
              · exact absurd hf h1
              · exact absurd hx h1
    | some e => exact ⟨e, rfl⟩
  obtain ⟨cap, sign, ds⟩ := e
  have hds := h.2.2 cap sign ds he
  have hne0 : f.text ≠ ['0'] := by intro h; rw [h] at hlen; simp at hlen
  obtain ⟨c, hc⟩ : ∃ c, f.text[1]? = some c := by
    rw [List.getElem?_eq_getElem (by omega)]; exact ⟨_, rfl⟩
  have hcm := text_chars f c (List.mem_of_getElem? hc)
  have htail : tailText f = expText f.exp := by simp [tailText, hf, fracText]
  have htrim : trimZeros f.text = expText f.exp := by
    rw [text_eq f, trimZeros_text _ _ (tail_head f), (dropZeros_nil f.whole).2 hz, htail]
    rfl
  have hhead : ∃ x xs, expText f.exp = x :: xs ∧ x ≠ '.' ∧ isD x = false := by
    rw [he]
    refine ⟨_, _, rfl, ?_, ?_⟩ <;> cases cap <;> decide
  obtain ⟨x, xs, hx, hxd, hxn⟩ := hhead
  have hlast : (expText f.exp).getLast? ≠ some '.' := by
    intro hl
    have := (tail_last_dot f h.2.2 (by rw [htail, hx]; simp)).1 (by rw [htail]; exact hl)
    rw [hf] at this
    cases this.1
  refine ⟨expText f.exp, ?_, ?_⟩
  · unfold emitFloat
    rw [adjustFloat_core _ (by omega), trimI_text]
    have : core f.text = some (expText f.exp) := by
      unfold core
      dsimp only
      rw [if_neg hne0, hc]
      dsimp only
      rw [if_pos (show c ≠ 'x' ∧ c ≠ 'o' from ⟨hcm.2.2.1, hcm.2.2.2⟩), htrim, hx]
      rw [if_neg (by intro h; injection h with h _; exact hxd h)]
      show some (trailingZero (leadingZero (x :: xs))) = _
      have hl : leadingZero (x :: xs) = x :: xs := by simp [leadingZero, hxd]
      rw [hl, ← hx]
      unfold trailingZero
      rw [if_neg hlast]
    rw [this]
    have hsub : ∀ ch ∈ expText f.exp, ch ≠ '_' := by
      intro ch hch
      apply (text_chars f ch _).1
      rw [text_eq, htail]; exact List.mem_append_right _ hch
    have hdrop : ∀ cs : List Char, (∀ c ∈ cs, c ≠ '_') → dropUnderscores cs = cs := by
      intro cs
      induction cs with
      | nil => intro _; rfl
      | cons c cs ih =>
        intro h
        rw [drop_cons (h c List.mem_cons_self), ih (fun x hx => h x (List.mem_cons_of_mem _ hx))]
    simp [hdrop _ hsub]
  · intro g hg heq
    cases hw : g.whole with
    | nil => exact hg.1.1 hw
    | cons d rest =>
      rw [text_eq, hw, hx] at heq
      simp only [List.map_cons, List.cons_append, List.cons.injEq] at heq
      rw [← heq.1, isD_dch] at hxn
      cases hxn

theorem float_literal_fails : ¬ FloatLiteralsKeepTheirValue := by
  intro h
  have hg : (⟨[0], none, some (false, none, [1])⟩ : Decimal).goFloat :=
    ⟨by simp, by simp, by intro _ _ _ h; simp at h; rw [← h.2.2]; simp⟩
  obtain ⟨g, h1, h2, _⟩ := h _ hg
  obtain ⟨out, h3, h4⟩ := zero_with_exponent_fails _ hg rfl (by simp)
  rw [h1] at h3
  injection h3 with h3
  exact h4 g h2 h3

/-- C164, imaginary literals: two or more characters before the `i`, with a point or a digit other than
zero, keep their value. -/
theorem imaginary_literal_partial (f : Decimal) (hlen : 2 ≤ f.text.length)
    (hexp : ∀ cap sign ds, f.exp = some (cap, sign, ds) → ds ≠ [])
    (hgood : f.frac ≠ none ∨ ∃ d ∈ f.whole, d ≠ 0) :
    ∃ g : Decimal, emitImaginary (f.text ++ ['i']) = some g.text ∧ g.zigNumber ∧ g.value = f.value := by
  refine ⟨adjusted f, ?_, adjusted_zig f hexp, adjusted_value f⟩
  unfold emitImaginary
  rw [adjustFloat_core _ (by simp; omega), trimI_snoc, core_text f hlen hgood hexp]

example : 2 ≤ (⟨[1, 2], none, none⟩ : Decimal).text.length ∧
    emitImaginary ((⟨[0, 1, 2], none, none⟩ : Decimal).text ++ ['i']) = some ['1', '2'] := by decide

/-- `0i` is written as zero. -/
theorem imaginary_zero : emitImaginary ['0', 'i'] = some ['0', '.', '0'] := by decide

/-- C164 fails: the compiler panics (index out of range) on every imaginary literal of a single digit other
than zero. -/
theorem imaginary_digit_fails (d : Fin 10) (h : d ≠ 0) : emitImaginary [dch d, 'i'] = none := by
  revert d; decide

/-- C164 fails: the compiler panics on every imaginary literal that is two or more zeros. -/
theorem imaginary_zeros_fails (n : Nat) : emitImaginary (List.replicate (n + 2) '0' ++ ['i']) = none := by
  have ht : ∀ k, trimZeros (List.replicate k '0') = [] := by
    intro k
    induction k with
    | zero => rfl
    | succ k ih => simpa [List.replicate_succ, trimZeros] using ih
  unfold emitImaginary
  rw [adjustFloat_core _ (by simp)]
  have hi : trimI (List.replicate (n + 2) '0' ++ ['i']) = List.replicate (n + 2) '0' := by
    unfold trimI; simp
  rw [hi]
  unfold core
  have hne : List.replicate (n + 2) '0' ≠ ['0'] := by simp [List.replicate_succ]
  have h1 : (List.replicate (n + 2) '0')[1]? = some '0' := by simp [List.replicate_succ]
  dsimp only
  rw [if_neg hne, h1]
  dsimp only
  rw [if_pos (show '0' ≠ 'x' ∧ '0' ≠ 'o' by decide), ht]
  rfl

/-- C164 fails: a binary imaginary literal loses its leading zero and is no longer a number. -/
theorem imaginary_binary_fails :
    emitImaginary ['0', 'b', '1', '0', '1', 'i'] = some ['b', '1', '0', '1'] := by decide

end Verif.Zgo.Lit
