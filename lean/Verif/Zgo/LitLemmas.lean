import Verif.Zgo.LitSpec
import Mathlib.Tactic.Ring
import Mathlib.Tactic.FieldSimp
import Mathlib.Data.Rat.Lemmas
import Mathlib.Algebra.Order.Field.Rat
import Mathlib.Algebra.GroupWithZero.Basic

/-! # zgo literals: helper lemmas -/
namespace Verif.Zgo.Lit
open Spec

/-! ## Integers -/

theorem digits_after {b acc : Nat} {s : List Char} {n : Nat} (h : digits b acc false s = some n) :
    digits b acc true s = some n := by
  cases s with
  | nil => simp [digits] at h
  | cons c cs =>
    unfold digits at h ⊢
    by_cases hc : c = '_'
    · simp [hc] at h
    · simpa [hc] using h

theorem digits_strip {b : Nat} {s : List Char} : ∀ {acc : Nat} {p : Bool} {n : Nat},
    digits b acc p s = some n → digits b acc p (dropUnderscores s) = some n := by
  induction s with
  | nil => intro acc p n h; exact h
  | cons c cs ih =>
    intro acc p n h
    unfold digits at h
    by_cases hc : c = '_'
    · simp only [hc, if_true] at h
      cases p with
      | false => simp at h
      | true =>
        simp only [if_true] at h
        simp only [hc, dropUnderscores, if_true]
        exact digits_after (ih h)
    · simp only [hc, if_false] at h
      simp only [dropUnderscores, hc, if_false]
      unfold digits
      simp only [hc, if_false]
      cases hd : digit c with
      | none => simp [hd] at h
      | some d =>
        simp only [hd] at h ⊢
        by_cases hb : d < b
        · simp only [hb, if_true] at h ⊢
          exact ih h
        · simp [hb] at h

theorem goPrefixed_strip {b : Nat} {s : List Char} {n : Nat} (h : goPrefixed b s = some n) :
    digits b 0 false (dropUnderscores s) = some n := by
  unfold goPrefixed at h
  split at h
  · simp only [dropUnderscores, if_true]
    exact digits_strip h
  · exact digits_strip h

theorem drop_cons {c : Char} (h : c ≠ '_') (cs : List Char) :
    dropUnderscores (c :: cs) = c :: dropUnderscores cs := by simp [dropUnderscores, h]

theorem zigInt_dec {c : Char} {cs : List Char} (h : c ≠ '0') : zigInt (c :: cs) = digits 10 0 false (c :: cs) := by
  rw [zigInt.eq_def]
  split <;> simp_all

theorem char_eq {c : Char} {n : Nat} (h : c.toNat = n) : c = Char.ofNat n := by
  rw [← h]; simp

theorem octal_char {c : Char} {d : Nat} (h : digit c = some d) (hd : d < 8) (h0 : c ≠ '0') : oldOctal c = true := by
  unfold digit at h
  dsimp only at h
  have hc : 48 ≤ c.toNat ∧ c.toNat ≤ 55 := by
    split at h
    · simp at h; omega
    split at h
    · simp at h; omega
    split at h
    · simp at h; omega
    · cases h
  have h1 : c.toNat ≠ 48 := fun h => h0 (char_eq h)
  have : c.toNat = 49 ∨ c.toNat = 50 ∨ c.toNat = 51 ∨ c.toNat = 52 ∨ c.toNat = 53 ∨ c.toNat = 54 ∨ c.toNat = 55 := by omega
  rcases this with h | h | h | h | h | h | h <;> rw [char_eq h] <;> decide

theorem emitInt_other {c : Char} {cs : List Char} (h : oldOctal c = false) :
    emitInt ('0' :: c :: cs) = dropUnderscores ('0' :: c :: cs) := by
  rw [emitInt]; simp [h]

theorem int_literal {s : List Char} {n : Nat} (h : goInt s = some n)
    (h1 : capitalPrefix s = false) (h2 : doubleZero s = false) : zigInt (emitInt s) = some n := by
  unfold goInt at h
  split at h
  · simpa [emitInt, dropUnderscores, zigInt] using h
  · rw [emitInt_other (by decide), drop_cons (by decide), drop_cons (by decide), zigInt.eq_def]
    exact goPrefixed_strip h
  · simp [capitalPrefix] at h1
  · rw [emitInt_other (by decide), drop_cons (by decide), drop_cons (by decide), zigInt.eq_def]
    exact goPrefixed_strip h
  · simp [capitalPrefix] at h1
  · rw [emitInt_other (by decide), drop_cons (by decide), drop_cons (by decide), zigInt.eq_def]
    exact goPrefixed_strip h
  · simp [capitalPrefix] at h1
  · rename_i cs _ _ _ _ _ _ _
    cases cs with
    | nil => simp_all
    | cons c r =>
      by_cases hc : c = '_'
      · subst hc
        have : oldOctal '_' = true := by decide
        simp only [emitInt, this, if_true, trimUnderscore]
        rw [zigInt.eq_def]
        exact h
      · have hg : goPrefixed 8 (c :: r) = digits 8 0 false (c :: r) := by
          unfold goPrefixed; split
          · simp_all
          · rfl
        rw [hg] at h
        have h3 := h
        unfold digits at h3
        simp only [hc, if_false] at h3
        cases hd : digit c with
        | none => simp [hd] at h3
        | some d =>
          simp only [hd] at h3
          by_cases hb : d < 8
          · have h0 : c ≠ '0' := by
              intro h0; subst h0; simp [doubleZero] at h2
            have ho := octal_char hd hb h0
            have ht : trimUnderscore (c :: r) = c :: r := by
              unfold trimUnderscore; split
              · simp_all
              · rfl
            simp only [emitInt, ho, if_true, ht]
            rw [zigInt.eq_def]
            exact h
          · simp [hb] at h3
  · rename_i hn
    cases s with
    | nil => simp [digits] at h
    | cons c r =>
      have h0 : c ≠ '0' := by
        intro h0; subst h0
        exact hn _ rfl
      have hc : c ≠ '_' := by
        intro hc; subst hc; simp [digits] at h
      have he : emitInt (c :: r) = dropUnderscores (c :: r) := by
        rw [emitInt.eq_def]; split
        · simp_all
        · rfl
      rw [he, drop_cons hc, zigInt_dec h0, ← drop_cons hc]
      exact digits_strip h

/-! ## Runes -/

theorem digit_ofNat (n : Nat) (h : n < 10) : digit (Char.ofNat (48 + n)) = some n ∧ Char.ofNat (48 + n) ≠ '_' := by
  have : ∀ m : Fin 10, digit (Char.ofNat (48 + m.val)) = some m.val ∧ Char.ofNat (48 + m.val) ≠ '_' := by decide
  exact this ⟨n, h⟩

theorem digits_digit {b acc n : Nat} {p : Bool} (h : n < 10) (hb : n < b) (ys : List Char) :
    digits b acc p (Char.ofNat (48 + n) :: ys) = digits b (acc * b + n) true ys := by
  obtain ⟨h1, h2⟩ := digit_ofNat n h
  rw [digits]
  simp [h1, h2, hb]

theorem digits_decimal (n : Nat) : ∀ ys, digits 10 0 false (emitDecimal n ++ ys) = digits 10 n true ys := by
  induction n using Nat.strongRecOn with
  | _ n ih =>
    intro ys
    rw [emitDecimal]
    by_cases h : n < 10
    · simp only [h, if_true, List.singleton_append]
      rw [digits_digit h h]; simp
    · simp only [h, if_false, List.append_assoc, List.singleton_append]
      rw [ih (n / 10) (by omega), digits_digit (by omega) (by omega)]
      congr 1
      omega

theorem decimal_head (n : Nat) (h : n ≠ 0) : ∃ c cs, emitDecimal n = c :: cs ∧ c ≠ '0' := by
  induction n using Nat.strongRecOn with
  | _ n ih =>
    rw [emitDecimal]
    by_cases h1 : n < 10
    · simp only [h1, if_true]
      refine ⟨_, _, rfl, ?_⟩
      have : ∀ m : Fin 10, m.val ≠ 0 → Char.ofNat (48 + m.val) ≠ '0' := by decide
      exact this ⟨n, h1⟩ h
    · simp only [h1, if_false]
      obtain ⟨c, cs, h2, h3⟩ := ih (n / 10) (by omega) (by omega)
      exact ⟨c, cs ++ [Char.ofNat (48 + n % 10)], by rw [h2]; rfl, h3⟩

theorem rune_literal (n : Nat) : zigInt (emitDecimal n) = some n := by
  by_cases h : n = 0
  · subst h; rw [emitDecimal]; decide
  · obtain ⟨c, cs, h1, h2⟩ := decimal_head n h
    have := digits_decimal n []
    rw [List.append_nil, h1] at this
    rw [h1, zigInt_dec h2, this]
    simp [digits]

/-! ## Floats -/

def tailText (f : Decimal) : List Char := fracText f.frac ++ expText f.exp

attribute [local simp] fracText signText expText

theorem text_eq (f : Decimal) : f.text = f.whole.map dch ++ tailText f := by
  simp [Decimal.text, tailText, List.append_assoc]

def dropZeros : List (Fin 10) → List (Fin 10)
  | [] => []
  | d :: ds => if d = 0 then dropZeros ds else d :: ds

theorem dch_zero (d : Fin 10) : dch d = '0' ↔ d = 0 := by
  revert d; decide

theorem dch_not : ∀ d : Fin 10, dch d ≠ '.' ∧ dch d ≠ '_' ∧ dch d ≠ 'i' ∧ dch d ≠ 'x' ∧ dch d ≠ 'o' ∧ dch d ≠ 'e' ∧
    dch d ≠ 'E' ∧ dch d ≠ '+' ∧ dch d ≠ '-' := by decide

theorem trimZeros_of {cs : List Char} (h : cs.head? ≠ some '0') : trimZeros cs = cs := by
  cases cs with
  | nil => rfl
  | cons c cs =>
    rw [trimZeros.eq_def]; split
    · rename_i heq; injection heq with h1 h2; simp [h1] at h
    · rfl

theorem trimZeros_text (ds : List (Fin 10)) (tail : List Char) (ht : tail.head? ≠ some '0') :
    trimZeros (ds.map dch ++ tail) = (dropZeros ds).map dch ++ tail := by
  induction ds with
  | nil => simpa [dropZeros] using trimZeros_of ht
  | cons d ds ih =>
    by_cases hd : d = 0
    · subst hd
      have h0 : dch 0 = '0' := by decide
      simp only [List.map_cons, List.cons_append, h0, trimZeros, dropZeros, if_true]
      exact ih
    · have hne : dch d ≠ '0' := fun h => hd ((dch_zero d).1 h)
      simp only [dropZeros, hd, if_false]
      apply trimZeros_of
      simp [hne]

theorem tail_head (f : Decimal) : (tailText f).head? ≠ some '0' := by
  unfold tailText
  cases f.frac with
  | some ds => simp
  | none =>
    cases f.exp with
    | none => simp
    | some e =>
      obtain ⟨cap, sign, ds⟩ := e
      cases cap <;> simp

/-- The characters a literal's text is made of. -/
theorem text_chars (f : Decimal) : ∀ c ∈ f.text, c ≠ '_' ∧ c ≠ 'i' ∧ c ≠ 'x' ∧ c ≠ 'o' := by
  have hm : ∀ (ds : List (Fin 10)) (c : Char), c ∈ ds.map dch → c ≠ '_' ∧ c ≠ 'i' ∧ c ≠ 'x' ∧ c ≠ 'o' := by
    intro ds c hc
    obtain ⟨d, _, rfl⟩ := List.mem_map.1 hc
    have := dch_not d
    exact ⟨this.2.1, this.2.2.1, this.2.2.2.1, this.2.2.2.2.1⟩
  intro c hc
  rw [text_eq] at hc
  rcases List.mem_append.1 hc with hc | hc
  · exact hm _ c hc
  · unfold tailText at hc
    rcases List.mem_append.1 hc with hc | hc
    · cases hf : f.frac with
      | none => simp [hf] at hc
      | some ds =>
        rw [hf] at hc
        rcases List.mem_cons.1 hc with rfl | hc
        · decide
        · exact hm _ c hc
    · cases he : f.exp with
      | none => simp [he] at hc
      | some e =>
        obtain ⟨cap, sign, ds⟩ := e
        rw [he] at hc
        rcases List.mem_cons.1 hc with hc | hc
        · cases cap <;> (simp at hc; subst hc; decide)
        · rcases List.mem_append.1 hc with hc | hc
          · cases sign with
            | none => simp at hc
            | some b => cases b <;> (simp at hc; subst hc; decide)
          · exact hm _ c hc

theorem drop_text (f : Decimal) : dropUnderscores f.text = f.text := by
  have : ∀ cs : List Char, (∀ c ∈ cs, c ≠ '_') → dropUnderscores cs = cs := by
    intro cs
    induction cs with
    | nil => intro _; rfl
    | cons c cs ih =>
      intro h
      rw [drop_cons (h c List.mem_cons_self), ih (fun x hx => h x (List.mem_cons_of_mem _ hx))]
  exact this _ (fun c hc => (text_chars f c hc).1)

/-- What the adjustment turns a literal into. -/
def adjusted (f : Decimal) : Decimal :=
  { whole := if dropZeros f.whole = [] then [0] else dropZeros f.whole
    frac := if f.frac = some [] ∧ f.exp = none then some [0] else f.frac
    exp := f.exp }

theorem dropZeros_head (ds : List (Fin 10)) (d : Fin 10) (rest : List (Fin 10)) (h : dropZeros ds = d :: rest) : d ≠ 0 := by
  induction ds with
  | nil => simp [dropZeros] at h
  | cons x xs ih =>
    unfold dropZeros at h
    by_cases hx : x = 0
    · simp [hx] at h; exact ih h
    · simp [hx] at h; rw [← h.1]; exact hx

theorem dropZeros_nil (ds : List (Fin 10)) : dropZeros ds = [] ↔ ∀ d ∈ ds, d = 0 := by
  induction ds with
  | nil => simp [dropZeros]
  | cons x xs ih =>
    unfold dropZeros
    by_cases hx : x = 0
    · simp [hx, ih]
    · simp [hx]

theorem tail_last_dot (f : Decimal) (hexp : ∀ cap sign ds, f.exp = some (cap, sign, ds) → ds ≠ []) (hne : tailText f ≠ []) :
    (tailText f).getLast? = some '.' ↔ (f.frac = some [] ∧ f.exp = none) := by
  unfold tailText at *
  cases he : f.exp with
  | some e =>
    obtain ⟨cap, sign, ds⟩ := e
    have hds := hexp cap sign ds he
    simp only [reduceCtorEq, and_false, iff_false]
    obtain ⟨init, d, rfl⟩ := ds.eq_nil_or_concat'.resolve_left hds
    have : ∀ (a : List Char), (a ++ expText (some (cap, sign, init ++ [d]))).getLast? = some (dch d) := by
      intro a
      simp [List.getLast?_append, List.getLast?_cons]
    rw [this]
    simpa using (dch_not d).1
  | none =>
    cases hf : f.frac with
    | none => simp [he, hf] at hne
    | some ds =>
      simp only [Option.some.injEq, and_true, List.append_nil]
      rcases ds.eq_nil_or_concat' with rfl | ⟨init, d, rfl⟩
      · simp
      · simp only [fracText, expText, List.append_nil, List.map_append, List.map_cons, List.map_nil]
        have : ('.' :: (init.map dch ++ [dch d])).getLast? = some (dch d) := by
          simp [List.getLast?_cons]
        rw [this]
        simpa using (dch_not d).1

theorem last_ne_i (f : Decimal) : f.text.getLast? ≠ some 'i' := by
  intro h
  exact (text_chars f 'i' (List.mem_of_getLast? h)).2.1 rfl

theorem trimI_text (f : Decimal) : trimI f.text = f.text := by
  unfold trimI; rw [if_neg (last_ne_i f)]

theorem trimI_snoc (f : Decimal) : trimI (f.text ++ ['i']) = f.text := by
  unfold trimI; simp

/-- The adjustment after the `i` was removed. -/
def core (v : List Char) : Option (List Char) :=
  let v := if v = ['0'] then ['0', '.', '0'] else v
  match v[1]? with
  | none => none
  | some c =>
    let v := if c ≠ 'x' ∧ c ≠ 'o' then trimZeros v else v
    let v := if v = ['.'] then ['0', '.', '0'] else v
    match v with
    | [] => none
    | v => some (trailingZero (leadingZero v))

theorem adjustFloat_core (v : List Char) (h : 1 < v.length) : adjustFloat v = core (trimI v) := by
  unfold adjustFloat core
  rw [if_neg (by omega)]
  rfl

theorem core_text (f : Decimal) (hlen : 2 ≤ f.text.length)
    (hgood : f.frac ≠ none ∨ ∃ d ∈ f.whole, d ≠ 0)
    (hexp : ∀ cap sign ds, f.exp = some (cap, sign, ds) → ds ≠ []) :
    core f.text = some (adjusted f).text := by
  have hne0 : f.text ≠ ['0'] := by intro h; rw [h] at hlen; simp at hlen
  obtain ⟨c, hc⟩ : ∃ c, f.text[1]? = some c := by
    rw [List.getElem?_eq_getElem (by omega)]; exact ⟨_, rfl⟩
  have hcm := text_chars f c (List.mem_of_getElem? hc)
  unfold core
  dsimp only
  rw [if_neg hne0, hc]
  dsimp only
  rw [if_pos (show c ≠ 'x' ∧ c ≠ 'o' from ⟨hcm.2.2.1, hcm.2.2.2⟩), text_eq f, trimZeros_text _ _ (tail_head f)]
  by_cases hz : dropZeros f.whole = []
  · -- only zeros before the point
    have hfr : f.frac ≠ none := by
      rcases hgood with h | ⟨d, hd, h0⟩
      · exact h
      · exact absurd ((dropZeros_nil f.whole).1 hz d hd) h0
    obtain ⟨ds, hds⟩ := Option.ne_none_iff_exists'.1 hfr
    obtain ⟨tl, htl⟩ : ∃ tl, tailText f = '.' :: tl := by
      simp only [tailText, hds, List.cons_append]
      exact ⟨_, rfl⟩
    have htne : tailText f ≠ [] := by rw [htl]; simp
    have hlast := tail_last_dot f hexp htne
    have hadj : (adjusted f).whole = [0] := by simp [adjusted, hz]
    have h0 : dch 0 = '0' := by decide
    rw [text_eq (adjusted f), hadj]
    simp only [hz, List.map_nil, List.nil_append, List.map_cons, h0, List.singleton_append]
    by_cases hdot : f.frac = some [] ∧ f.exp = none
    · have h1 : tailText f = ['.'] := by simp [tailText, hdot.1, hdot.2]
      have h2 : tailText (adjusted f) = ['.', '0'] := by
        simp [tailText, adjusted, hdot.1, hdot.2, h0]
      rw [h1, h2]
      simp [leadingZero, trailingZero]
    · have h2 : tailText (adjusted f) = tailText f := by
        simp [tailText, adjusted, hdot]
      have h3 : tailText f ≠ ['.'] := by
        intro h; rw [h] at hlast; exact hdot (hlast.1 rfl)
      rw [h2, if_neg h3]
      have hl : leadingZero (tailText f) = '0' :: tailText f := by
        simp [leadingZero, htl]
      have ht : trailingZero ('0' :: tailText f) = '0' :: tailText f := by
        unfold trailingZero
        rw [if_neg]
        rw [List.getLast?_cons]
        intro h
        apply hdot
        apply hlast.1
        cases hg : (tailText f).getLast? with
        | none => rw [List.getLast?_eq_none_iff] at hg; exact absurd hg htne
        | some x => rw [hg] at h; simpa using h
      split
      · rename_i h; exact absurd h htne
      · rw [hl, ht]
  · obtain ⟨d, rest, hd⟩ : ∃ d rest, dropZeros f.whole = d :: rest := by
      cases h : dropZeros f.whole with
      | nil => exact absurd h hz
      | cons d rest => exact ⟨d, rest, rfl⟩
    have hadj : (adjusted f).whole = dropZeros f.whole := by simp [adjusted, hz]
    rw [text_eq (adjusted f), hadj, hd]
    simp only [List.map_cons, List.cons_append]
    have hd1 : dch d ≠ '.' := (dch_not d).1
    rw [if_neg (by simp [hd1])]
    have hl : leadingZero (dch d :: (rest.map dch ++ tailText f)) = dch d :: (rest.map dch ++ tailText f) := by
      simp [leadingZero, hd1]
    show some (trailingZero (leadingZero (dch d :: (rest.map dch ++ tailText f)))) = _
    rw [hl]
    congr 1
    by_cases hdot : f.frac = some [] ∧ f.exp = none
    · have h1 : tailText f = ['.'] := by simp [tailText, hdot.1, hdot.2]
      have h0 : dch 0 = '0' := by decide
      have h2 : tailText (adjusted f) = ['.', '0'] := by
        simp [tailText, adjusted, hdot.1, hdot.2, h0]
      rw [h1, h2]
      unfold trailingZero
      rw [if_pos]
      · simp
      · rw [← List.cons_append, List.getLast?_append]; simp
    · have h2 : tailText (adjusted f) = tailText f := by
        simp [tailText, adjusted, hdot]
      rw [h2]
      unfold trailingZero
      rw [if_neg]
      rw [← List.cons_append, List.getLast?_append]
      by_cases htne : tailText f = []
      · rw [htne]
        simp only [List.getLast?_nil, Option.none_or]
        intro h
        have hmem := List.mem_of_getLast? h
        rw [← List.map_cons (f := dch)] at hmem
        obtain ⟨x, _, hx⟩ := List.mem_map.1 hmem
        exact (dch_not x).1 hx
      · have hlast := tail_last_dot f hexp htne
        intro h
        apply hdot
        apply hlast.1
        cases hg : (tailText f).getLast? with
        | none => rw [List.getLast?_eq_none_iff] at hg; exact absurd hg htne
        | some x => rw [hg] at h; simpa using h

theorem dnat_append (a b : List (Fin 10)) : dnat (a ++ b) = dnat a * 10 ^ b.length + dnat b := by
  have key : ∀ (b : List (Fin 10)) (x : Nat), b.foldl (fun a d => a * 10 + d.val) x =
      x * 10 ^ b.length + b.foldl (fun a d => a * 10 + d.val) 0 := by
    intro b
    induction b with
    | nil => simp
    | cons d ds ih =>
      intro x
      simp only [List.foldl_cons, List.length_cons]
      rw [ih (x * 10 + d.val), ih (0 * 10 + d.val)]
      ring
  unfold dnat
  rw [List.foldl_append, key]

theorem dnat_dropZeros (ds : List (Fin 10)) : dnat (dropZeros ds) = dnat ds := by
  induction ds with
  | nil => rfl
  | cons d ds ih =>
    unfold dropZeros
    by_cases h : d = 0
    · simp only [h, if_true, ih]
      have := dnat_append [0] ds
      simp only [List.singleton_append] at this
      rw [this]; simp [dnat]
    · simp [h]

theorem adjusted_value (f : Decimal) : (adjusted f).value = f.value := by
  have hw : dnat (adjusted f).whole = dnat f.whole := by
    unfold adjusted
    dsimp only
    split
    · rename_i h; rw [← dnat_dropZeros f.whole, h]; rfl
    · exact dnat_dropZeros _
  have hexp : (adjusted f).exponent = f.exponent := rfl
  unfold Decimal.value
  rw [hexp, dnat_append, dnat_append, hw]
  by_cases hdot : f.frac = some [] ∧ f.exp = none
  · have h1 : (adjusted f).frac = some [0] := by simp [adjusted, hdot]
    have hp : (adjusted f).places = 1 := by simp [Decimal.places, h1]
    have hp2 : f.places = 0 := by simp [Decimal.places, hdot.1]
    rw [hp, hp2, h1, hdot.1]
    have : (10 : Rat) ^ (f.exponent - 0) = 10 ^ (f.exponent - 1) * 10 := by
      rw [← zpow_add_one₀ (by norm_num)]; congr 1; ring
    rw [this]
    simp [dnat]
    ring
  · have h1 : (adjusted f).frac = f.frac := by simp [adjusted, hdot]
    have hp : (adjusted f).places = f.places := by simp [Decimal.places, h1]
    rw [hp, h1]

theorem adjusted_zig (f : Decimal) (hexp : ∀ cap sign ds, f.exp = some (cap, sign, ds) → ds ≠ []) :
    (adjusted f).zigNumber := by
  refine ⟨⟨?_, ?_⟩, ?_, hexp⟩
  · unfold adjusted; dsimp only; split
    · simp
    · assumption
  · unfold adjusted; dsimp only; split
    · simp
    · rename_i h
      cases hd : dropZeros f.whole with
      | nil => exact absurd hd h
      | cons d rest =>
        intro h0
        simp only [List.head?_cons, Option.some.injEq] at h0
        exact absurd h0 (dropZeros_head _ _ _ hd)
  · unfold adjusted; dsimp only
    split
    · simp
    · rename_i h
      intro h1 h2
      exact h ⟨h1, h2⟩

/-! ## Text determines the literal -/

def isD (c : Char) : Bool := decide (48 ≤ c.toNat ∧ c.toNat ≤ 57)

theorem isD_dch : ∀ d : Fin 10, isD (dch d) = true := by decide

theorem dch_inj : ∀ a b : Fin 10, dch a = dch b → a = b := by decide

theorem split_digits {a b : List (Fin 10)} {s t : List Char}
    (hs : ∀ c, s.head? = some c → isD c = false) (ht : ∀ c, t.head? = some c → isD c = false)
    (h : a.map dch ++ s = b.map dch ++ t) : a = b ∧ s = t := by
  induction a generalizing b with
  | nil =>
    cases b with
    | nil => exact ⟨rfl, by simpa using h⟩
    | cons y ys =>
      simp only [List.map_nil, List.nil_append, List.map_cons, List.cons_append] at h
      have := hs (dch y) (by rw [h]; rfl)
      rw [isD_dch] at this; cases this
  | cons x xs ih =>
    cases b with
    | nil =>
      simp only [List.map_nil, List.nil_append, List.map_cons, List.cons_append] at h
      have := ht (dch x) (by rw [← h]; rfl)
      rw [isD_dch] at this; cases this
    | cons y ys =>
      simp only [List.map_cons, List.cons_append, List.cons.injEq] at h
      obtain ⟨h1, h2⟩ := ih h.2
      exact ⟨by rw [dch_inj _ _ h.1, h1], h2⟩

theorem exp_head (e) : ∀ c, (expText e).head? = some c → isD c = false ∧ c ≠ '.' := by
  intro c h
  cases e with
  | none => simp [expText] at h
  | some e =>
    obtain ⟨cap, sign, ds⟩ := e
    cases cap <;> (simp [expText] at h; subst h; decide)

theorem map_dch_inj {a b : List (Fin 10)} (h : a.map dch = b.map dch) : a = b := by
  have := split_digits (a := a) (b := b) (s := []) (t := []) (by simp) (by simp) (by simpa using h)
  exact this.1

theorem exp_inj {a b} (h : expText a = expText b) : a = b := by
  cases a with
  | none =>
    cases b with
    | none => rfl
    | some e => obtain ⟨cap, sign, ds⟩ := e; simp [expText] at h
  | some e =>
    obtain ⟨cap, sign, ds⟩ := e
    cases b with
    | none => simp [expText] at h
    | some e2 =>
      obtain ⟨cap2, sign2, ds2⟩ := e2
      simp only [expText, List.cons.injEq] at h
      obtain ⟨h1, h2⟩ := h
      have hc : cap = cap2 := by cases cap <;> cases cap2 <;> simp_all
      have hne : ∀ (ds : List (Fin 10)) (c : Char) (rest : List Char), isD c = false → ds.map dch ≠ c :: rest := by
        intro ds c rest hc h
        cases ds with
        | nil => simp at h
        | cons d ds =>
          simp only [List.map_cons, List.cons.injEq] at h
          rw [← h.1, isD_dch] at hc; cases hc
      subst hc
      have hp : isD '+' = false := by decide
      have hm : isD '-' = false := by decide
      cases sign with
      | none =>
        cases sign2 with
        | none => simp only [signText, List.nil_append] at h2; rw [map_dch_inj h2]
        | some s2 =>
          cases s2
          · exact absurd h2 (hne _ _ _ hp)
          · exact absurd h2 (hne _ _ _ hm)
      | some s =>
        cases sign2 with
        | none =>
          cases s
          · exact absurd h2.symm (hne _ _ _ hp)
          · exact absurd h2.symm (hne _ _ _ hm)
        | some s2 =>
          cases s <;> cases s2 <;> simp at h2 ⊢ <;> exact map_dch_inj h2

theorem tail_eq (f : Decimal) : tailText f =
    fracText f.frac ++ expText f.exp := rfl

theorem tail_isD (f : Decimal) : ∀ c, (tailText f).head? = some c → isD c = false := by
  intro c h
  rw [tail_eq] at h
  cases hf : f.frac with
  | none => rw [hf] at h; exact (exp_head _ c h).1
  | some ds => rw [hf] at h; simp at h; subst h; decide

theorem text_inj {f g : Decimal} (h : f.text = g.text) : f = g := by
  rw [text_eq, text_eq] at h
  obtain ⟨h1, h2⟩ := split_digits (tail_isD f) (tail_isD g) h
  rw [tail_eq, tail_eq] at h2
  obtain ⟨fw, ff, fe⟩ := f
  obtain ⟨gw, gf, ge⟩ := g
  simp only at h1 h2
  subst h1
  cases ff with
  | none =>
    cases gf with
    | none => simp only [fracText, List.nil_append] at h2; rw [exp_inj h2]
    | some ds =>
      exfalso
      simp only [fracText, List.nil_append, List.cons_append] at h2
      exact (exp_head fe '.' (by rw [h2]; rfl)).2 rfl
  | some ds =>
    cases gf with
    | none =>
      exfalso
      simp only [fracText, List.nil_append, List.cons_append] at h2
      exact (exp_head ge '.' (by rw [← h2]; rfl)).2 rfl
    | some ds2 =>
      simp only [fracText, List.cons_append, List.cons.injEq, true_and] at h2
      obtain ⟨h3, h4⟩ := split_digits (fun c hc => (exp_head _ c hc).1) (fun c hc => (exp_head _ c hc).1) h2
      rw [h3, exp_inj h4]

/-! ## Strings -/

theorem hexValue_digit (n : Nat) (h : n < 16) : hexValue (hexDigit n) = some n := by
  have : ∀ m : Fin 16, hexValue (hexDigit m.val) = some m.val := by decide
  exact this ⟨n, h⟩

theorem zig_hex (enc : Nat → List Nat) (n b : Nat) (hb : b < 256) (rest : List Nat) :
    zigString enc (n + 1) ([92, 120] ++ hexDigits 2 b ++ rest) = (zigString enc n rest).map (b :: ·) := by
  have h1 : hexDigits 2 b = [hexDigit (b / 16 % 16), hexDigit (b % 16)] := by
    simp [hexDigits]
  have h2 : b / 16 % 16 = b / 16 := by omega
  rw [h1]
  show zigString enc (n + 1) (92 :: 120 :: hexDigit (b / 16 % 16) :: hexDigit (b % 16) :: rest) = _
  have h3 : b / 16 % 16 * 16 + b % 16 = b := by omega
  simp only [zigString, zigEscape, hexValue_digit _ (Nat.mod_lt _ (by decide : 0 < 16)), h3]
  simp

/-- Reading one piece. -/
theorem zig_piece {isPrint : Nat → Bool} {enc : Nat → List Nat} (ha : Ascii isPrint enc) (n : Nat) (p : Piece)
    (hp : Readable isPrint p) (rest : List Nat) :
    zigString enc (n + 1) (quotePiece isPrint p ++ rest) = (zigString enc n rest).map (bytesOf enc [p] ++ ·) := by
  cases p with
  | bad b =>
    rw [quotePiece, zig_hex enc n b hp]
    simp [bytesOf]
  | rune r =>
    have hb : bytesOf enc [.rune r] = enc r := by simp [bytesOf]
    rw [hb, quotePiece]
    by_cases hq : r = 34 ∨ r = 92
    · rw [if_pos hq]
      rcases hq with rfl | rfl
      · rw [ha.enc 34 (by decide)]; simp [zigString, zigEscape]
      · rw [ha.enc 92 (by decide)]; simp [zigString, zigEscape]
    · rw [if_neg hq]
      by_cases hpr : isPrint r = true
      · rw [if_pos hpr]
        have hc : ¬ (r < 32 ∨ r = 127) := by
          intro h
          have hlt : r < 128 := by omega
          have := (ha.print r hlt).1 hpr
          omega
        have hq1 : r ≠ 34 := fun h => hq (Or.inl h)
        have hq2 : r ≠ 92 := fun h => hq (Or.inr h)
        show zigString enc (n + 1) (r :: rest) = _
        rw [zigString]
        simp [hq1, hq2, hc]
      · rw [if_neg hpr]
        have hr : r < 128 ∧ r ≠ 7 ∧ r ≠ 8 ∧ r ≠ 11 ∧ r ≠ 12 := by
          rcases hp with h | h
          · exact absurd h hpr
          · exact h
        have hnp : ¬ (32 ≤ r ∧ r ≠ 127) := fun h => hpr ((ha.print r hr.1).2 h)
        rw [ha.enc r hr.1]
        rw [if_neg hr.2.1, if_neg hr.2.2.1, if_neg hr.2.2.2.2]
        by_cases h10 : r = 10
        · subst h10; simp [zigString, zigEscape]
        rw [if_neg h10]
        by_cases h13 : r = 13
        · subst h13; simp [zigString, zigEscape]
        rw [if_neg h13]
        by_cases h9 : r = 9
        · subst h9; simp [zigString, zigEscape]
        rw [if_neg h9, if_neg hr.2.2.2.1, if_pos (by omega), zig_hex enc n r (by omega)]
        simp

/-- An unreadable piece stops the reader. -/
theorem zig_unreadable {isPrint : Nat → Bool} {enc : Nat → List Nat} (ha : Ascii isPrint enc) (n : Nat) (p : Piece)
    (hw : ∀ b, p = .bad b → b < 256) (hp : ¬ Readable isPrint p) (rest : List Nat) :
    zigString enc n (quotePiece isPrint p ++ rest) = none := by
  cases n with
  | zero => simp [zigString, zigEscape]
  | succ n =>
    cases p with
    | bad b => exact absurd (hw b rfl) hp
    | rune r =>
      simp only [Readable, not_or] at hp
      obtain ⟨h1, h2⟩ := hp
      have h1' : isPrint r = false := by simpa using h1
      have hq : ¬ (r = 34 ∨ r = 92) := by
        rintro (rfl | rfl)
        · exact h1 ((ha.print 34 (by decide)).2 (by decide))
        · exact h1 ((ha.print 92 (by decide)).2 (by decide))
      rw [quotePiece, if_neg hq, if_neg h1]
      by_cases h7 : r = 7
      · subst h7; simp [zigString, zigEscape]
      rw [if_neg h7]
      by_cases h8 : r = 8
      · subst h8; simp [zigString, zigEscape]
      rw [if_neg h8]
      by_cases h12 : r = 12
      · subst h12; simp [zigString, zigEscape]
      rw [if_neg h12]
      by_cases h11 : r = 11
      · subst h11; simp [zigString, zigEscape]
      have hge : 128 ≤ r := by
        rcases Nat.lt_or_ge r 128 with h | h
        · exact absurd ⟨h, h7, h8, h11, h12⟩ h2
        · exact h
      rw [if_neg (by omega), if_neg (by omega), if_neg (by omega), if_neg h11, if_neg (by omega)]
      have hx : ∀ m, ∃ d ds, hexDigits 4 m = d :: ds ∧ d ≠ 123 := by
        intro m
        refine ⟨hexDigit (m / 16 / 16 / 16 % 16), _, by simp [hexDigits]; rfl, ?_⟩
        have : ∀ k : Fin 16, hexDigit k.val ≠ 123 := by decide
        exact this ⟨_, Nat.mod_lt _ (by decide)⟩
      split
      · obtain ⟨d, ds, hd, hne⟩ := hx r
        rw [hd]
        show zigString enc (n + 1) (92 :: 117 :: d :: (ds ++ rest)) = none
        have he : zigEscape enc (117 :: d :: (ds ++ rest)) = none := by
          rw [zigEscape.eq_def]; split <;> simp_all
        rw [zigString]
        simp [he]
      · show zigString enc (n + 1) (92 :: 85 :: (hexDigits 8 r ++ rest)) = none
        have he : zigEscape enc (85 :: (hexDigits 8 r ++ rest)) = none := by
          rw [zigEscape.eq_def]; split <;> simp_all
        rw [zigString]
        simp [he]

theorem quotePiece_pos (isPrint : Nat → Bool) (p : Piece) : 1 ≤ (quotePiece isPrint p).length := by
  cases p with
  | bad b => simp [quotePiece]
  | rune r => rw [quotePiece]; repeat' split
              all_goals simp

theorem bytesOf_cons (enc : Nat → List Nat) (p : Piece) (ps : List Piece) :
    bytesOf enc (p :: ps) = bytesOf enc [p] ++ bytesOf enc ps := by
  cases p <;> simp [bytesOf]

theorem zig_body {isPrint : Nat → Bool} {enc : Nat → List Nat} (ha : Ascii isPrint enc) :
    ∀ (v : List Piece) (n : Nat), (∀ p ∈ v, Readable isPrint p) → v.length < n →
    zigString enc n (quoteBody isPrint v ++ [34]) = some (bytesOf enc v) := by
  intro v
  induction v with
  | nil =>
    intro n _ hn
    cases n with
    | zero => simp at hn
    | succ n => simp [quoteBody, zigString, bytesOf]
  | cons p ps ih =>
    intro n hr hn
    cases n with
    | zero => simp at hn
    | succ n =>
      rw [quoteBody, List.append_assoc, zig_piece ha n p (hr p List.mem_cons_self),
        ih n (fun q hq => hr q (List.mem_cons_of_mem _ hq)) (by simp at hn; omega), bytesOf_cons enc p ps]
      rfl

theorem zig_body_none {isPrint : Nat → Bool} {enc : Nat → List Nat} (ha : Ascii isPrint enc) :
    ∀ (v : List Piece) (n : Nat), (∀ b, .bad b ∈ v → b < 256) → (∃ p ∈ v, ¬ Readable isPrint p) →
    zigString enc n (quoteBody isPrint v ++ [34]) = none := by
  intro v
  induction v with
  | nil => rintro n _ ⟨p, hp, _⟩; cases hp
  | cons p ps ih =>
    intro n hw hex
    rw [quoteBody, List.append_assoc]
    by_cases hp : Readable isPrint p
    · obtain ⟨q, hq, hnr⟩ := hex
      have hq' : q ∈ ps := by
        rcases List.mem_cons.1 hq with rfl | h
        · exact absurd hp hnr
        · exact h
      cases n with
      | zero => simp [zigString, zigEscape]
      | succ n =>
        rw [zig_piece ha n p hp, ih n (fun b hb => hw b (List.mem_cons_of_mem _ hb)) ⟨q, hq', hnr⟩]
        rfl
    · exact zig_unreadable ha n p (fun b hb => hw b (by rw [← hb]; exact List.mem_cons_self)) hp _

theorem body_length (isPrint : Nat → Bool) (v : List Piece) : v.length ≤ (quoteBody isPrint v).length := by
  induction v with
  | nil => simp
  | cons p ps ih =>
    have := quotePiece_pos isPrint p
    rw [quoteBody, List.length_append, List.length_cons]; omega

end Verif.Zgo.Lit
