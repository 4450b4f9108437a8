import Verif.Zgo.LitProps
/-!
# C164: floating-point literals with underscores
-/
namespace Verif.Zgo.Lit
open Spec

/-- A decimal digit. -/
def Spec.isDigit (c : Char) : Bool := decide ('0' ≤ c ∧ c ≤ '9')

/-- Go: underscores only one at a time and between two digits. `after`: the last character was a digit. -/
def Spec.underscored : Bool → List Char → Prop
  | _, [] => True
  | after, '_' :: cs => after = true ∧ (∃ d rest, cs = d :: rest ∧ Spec.isDigit d = true) ∧ Spec.underscored false cs
  | _, c :: cs => Spec.underscored (Spec.isDigit c) cs

/-- What remains of a literal without its zeros at the start does not start with an underscore. -/
def Spec.zerosThenNoUnderscore (v : List Char) : Prop := (v.dropWhile (· == '0')).head? ≠ some '_'

theorem drop_filter (v : List Char) : dropUnderscores v = v.filter (· ≠ '_') := by
  induction v with
  | nil => rfl
  | cons c cs ih =>
    by_cases h : c = '_'
    · subst h; simpa [dropUnderscores] using ih
    · rw [drop_cons h, ih]; simp [h]

theorem underscored_last : ∀ (v : List Char) (a : Bool), underscored a v → v.getLast? ≠ some '_'
  | [], _, _ => by simp
  | [c], a, h => by
    intro hl
    simp only [List.getLast?_singleton, Option.some.injEq] at hl
    subst hl
    obtain ⟨_, ⟨d, rest, hd, _⟩, _⟩ : underscored a ['_'] := h
    cases hd
  | c :: d :: cs, a, h => by
    rw [List.getLast?_cons_cons]
    by_cases hc : c = '_'
    · subst hc
      exact underscored_last (d :: cs) _ h.2.2
    · refine underscored_last (d :: cs) (Spec.isDigit c) ?_
      rw [Spec.underscored.eq_def] at h
      split at h
      · rename_i he; cases he
      · rename_i he
        simp only [List.cons.injEq] at he
        exact absurd he.1 hc
      · rename_i he
        simp only [List.cons.injEq] at he
        obtain ⟨rfl, rfl⟩ := he
        exact h

theorem drop_last {v : List Char} (h : v.getLast? ≠ some '_') : (dropUnderscores v).getLast? = v.getLast? := by
  rcases List.eq_nil_or_concat v with rfl | ⟨xs, c, rfl⟩
  · rfl
  · rw [List.concat_eq_append] at h ⊢
    have hc : c ≠ '_' := by rintro rfl; simp at h
    rw [drop_filter, List.filter_append]
    simp [hc]

theorem trimZeros_dropWhile : ∀ v : List Char, trimZeros v = v.dropWhile (· == '0')
  | [] => rfl
  | c :: cs => by
    by_cases h : c = '0'
    · subst h; simpa [trimZeros] using trimZeros_dropWhile cs
    · rw [trimZeros_of (by simpa using h)]; simp [h]

theorem trimZeros_drop {v : List Char} (h : zerosThenNoUnderscore v) : dropUnderscores (trimZeros v) = trimZeros (dropUnderscores v) := by
  induction v with
  | nil => rfl
  | cons c cs ih =>
    by_cases hc : c = '0'
    · subst hc
      have h' : zerosThenNoUnderscore cs := by simpa [zerosThenNoUnderscore] using h
      rw [drop_cons (by decide)]
      exact ih h'
    · have hu : c ≠ '_' := by rintro rfl; simp [zerosThenNoUnderscore] at h
      rw [trimZeros_of (by simpa using hc), drop_cons hu, trimZeros_of (by simpa using hc)]

theorem dropWhile_last {v : List Char} (hne : v.dropWhile (· == '0') ≠ []) : (v.dropWhile (· == '0')).getLast? = v.getLast? := by
  obtain ⟨xs, hx⟩ := List.dropWhile_suffix (l := v) (· == '0')
  rcases List.eq_nil_or_concat (v.dropWhile (· == '0')) with h | ⟨ys, c, h⟩
  · exact absurd h hne
  · rw [h, List.concat_eq_append] at hx ⊢
    rw [← hx, ← List.append_assoc, List.getLast?_concat, List.getLast?_concat]

theorem drop_finish {w : List Char} (h1 : w.head? ≠ some '_') (h2 : w.getLast? ≠ some '_') :
    dropUnderscores (trailingZero (leadingZero w)) = trailingZero (leadingZero (dropUnderscores w)) := by
  have hh : (dropUnderscores w).head? = w.head? := by
    cases w with
    | nil => rfl
    | cons c cs => rw [drop_cons (by simpa using h1)]; rfl
  have hl : dropUnderscores (leadingZero w) = leadingZero (dropUnderscores w) := by
    unfold leadingZero
    rw [hh]
    split
    · rw [drop_cons (by decide)]
    · rfl
  have hlast : (leadingZero w).getLast? ≠ some '_' := by
    unfold leadingZero
    split
    · cases w with
      | nil => simp
      | cons c cs => rw [List.getLast?_cons_cons]; exact h2
    · exact h2
  rw [← hl]
  unfold trailingZero
  rw [drop_last hlast]
  split
  · rw [drop_filter, List.filter_append, ← drop_filter]; rfl
  · rfl

theorem core_drop {v : List Char} (hlen : 2 ≤ v.length) (h0 : v ≠ ['0']) (hx : ∀ c ∈ v, c ≠ 'x' ∧ c ≠ 'o') (hz : zerosThenNoUnderscore v)
    (hl : v.getLast? ≠ some '_') {s t : List Char} (hs : dropUnderscores v = s) (hs2 : 2 ≤ s.length) (ht : core s = some t)
    (htu : ∀ c ∈ t, c ≠ '_') : (core v).map dropUnderscores = some t := by
  obtain ⟨c, hc⟩ : ∃ c, v[1]? = some c := ⟨v[1]'(by omega), List.getElem?_eq_getElem (by omega)⟩
  obtain ⟨d, hd⟩ : ∃ d, s[1]? = some d := ⟨s[1]'(by omega), List.getElem?_eq_getElem (by omega)⟩
  have hcx := hx c (List.mem_of_getElem? hc)
  have hdm : d ∈ v := by
    have : d ∈ dropUnderscores v := by rw [hs]; exact List.mem_of_getElem? hd
    rw [drop_filter] at this
    exact (List.mem_filter.1 this).1
  have hdx := hx d hdm
  have hs0 : s ≠ ['0'] := by rintro rfl; simp at hs2
  have hw : dropUnderscores (trimZeros v) = trimZeros s := by rw [trimZeros_drop hz, hs]
  have hwh : (trimZeros v).head? ≠ some '_' := by rw [trimZeros_dropWhile]; exact hz
  have e1 : core v = (match (if trimZeros v = ['.'] then ['0', '.', '0'] else trimZeros v) with
      | [] => none
      | w => some (trailingZero (leadingZero w))) := by
    unfold core
    dsimp only
    rw [if_neg h0, hc]
    dsimp only
    rw [if_pos hcx]
    rfl
  have e2 : core s = (match (if trimZeros s = ['.'] then ['0', '.', '0'] else trimZeros s) with
      | [] => none
      | w => some (trailingZero (leadingZero w))) := by
    unfold core
    dsimp only
    rw [if_neg hs0, hd]
    dsimp only
    rw [if_pos hdx]
    rfl
  rw [e2] at ht
  rw [e1]
  by_cases hdot : trimZeros v = ['.']
  · have : trimZeros s = ['.'] := by rw [← hw, hdot]; rfl
    rw [if_pos this] at ht
    rw [if_pos hdot]
    rw [show (some t : Option (List Char)) = _ from ht.symm]
    rfl
  · have hwl : trimZeros v ≠ [] → (trimZeros v).getLast? ≠ some '_' := by
      intro hne
      rw [trimZeros_dropWhile] at hne ⊢
      rw [dropWhile_last hne]
      exact hl
    rw [if_neg hdot]
    cases hv : trimZeros v with
    | nil =>
      have : trimZeros s = [] := by rw [← hw, hv]; rfl
      rw [this] at ht
      cases ht
    | cons x xs =>
      have hs' : trimZeros s = x :: dropUnderscores xs := by
        rw [← hw, hv, drop_cons (by rw [hv] at hwh; simpa using hwh)]
      have hns : trimZeros s ≠ ['.'] := by
        intro he
        have h1 := drop_last (hwl (by rw [hv]; simp))
        rw [hw, he] at h1
        rw [hs'] at he
        simp only [List.cons.injEq] at he
        have hxs : xs ≠ [] := by
          rintro rfl
          exact hdot (by rw [hv, he.1])
        rcases List.eq_nil_or_concat xs with h | ⟨ys, y, rfl⟩
        · exact hxs h
        · have hy := hwl (by rw [hv]; simp)
          rw [hv, List.concat_eq_append, ← List.cons_append, List.getLast?_concat] at hy
          have hm : y ∈ dropUnderscores (ys.concat y) := by
            rw [drop_filter, List.concat_eq_append]
            exact List.mem_filter.2 ⟨by simp, by simpa using hy⟩
          rw [he.2] at hm
          cases hm
      rw [if_neg hns, hs'] at ht
      injection ht with ht
      show some (dropUnderscores (trailingZero (leadingZero (x :: xs)))) = some t
      rw [← hv, drop_finish hwh (hwl (by rw [hv]; simp)), hw, hs', ht]

/-- **C164**, partial, with underscores: a literal whose zeros at the start are not followed by an underscore is written as a
Zig number of the same value. -/
theorem float_underscores_partial (v : List Char) (f : Decimal) (hv : v.filter (fun c => c ≠ '_') = f.text) (hu : underscored false v)
    (h : f.goFloat) (hgood : f.frac ≠ none ∨ ∃ d ∈ f.whole, d ≠ 0) (hz : zerosThenNoUnderscore v) :
    ∃ g : Decimal, emitFloat v = some g.text ∧ g.zigNumber ∧ g.value = f.value := by
  have hlen := text_length h
  have hs : dropUnderscores v = f.text := by rw [drop_filter]; exact hv
  have hvl : 2 ≤ v.length := by
    rw [← hs, drop_filter] at hlen
    exact Nat.le_trans hlen (List.length_filter_le _ _)
  have hl := underscored_last v false hu
  have hxo : ∀ c ∈ v, c ≠ 'i' ∧ c ≠ 'x' ∧ c ≠ 'o' := by
    intro c hc
    by_cases hcu : c = '_'
    · subst hcu; decide
    · exact (text_chars f c (by rw [← hs, drop_filter]; exact List.mem_filter.2 ⟨hc, by simpa using hcu⟩)).2
  refine ⟨adjusted f, ?_, adjusted_zig f h.2.2, adjusted_value f⟩
  unfold emitFloat
  have hti : trimI v = v := by
    unfold trimI
    rw [if_neg]
    intro hi
    exact (hxo 'i' (List.mem_of_getLast? hi)).1 rfl
  rw [adjustFloat_core _ (by omega), hti]
  refine core_drop hvl (by rintro rfl; simp at hvl) (fun c hc => (hxo c hc).2) hz hl hs hlen
    (core_text f hlen hgood h.2.2) ?_
  intro c hc
  exact (text_chars (adjusted f) c hc).1

/-- `1_000.0_5e1_0` and `00.2_5`. -/
example : underscored false ['1', '_', '0', '0', '0', '.', '0', '_', '5', 'e', '1', '_', '0'] ∧
    zerosThenNoUnderscore ['1', '_', '0', '0', '0', '.', '0', '_', '5', 'e', '1', '_', '0'] ∧
    ['1', '_', '0', '0', '0', '.', '0', '_', '5', 'e', '1', '_', '0'].filter (fun c => c ≠ '_') =
      (⟨[1, 0, 0, 0], some [0, 5], some (false, none, [1, 0])⟩ : Decimal).text ∧
    emitFloat ['1', '_', '0', '0', '0', '.', '0', '_', '5', 'e', '1', '_', '0'] =
      some ['1', '0', '0', '0', '.', '0', '5', 'e', '1', '0'] := by
  refine ⟨?_, by simp [zerosThenNoUnderscore], by decide, by decide⟩
  simp [underscored, Spec.isDigit]

/-- **C164** fails with underscores: after zeros and an underscore further zeros are kept. What is written starts with `0` and
another digit, whatever follows, and is no number in Zig. -/
theorem float_underscore_fails (d : Fin 10) (rest : List Char) (hr : ∀ c ∈ rest, c ≠ 'i' ∧ c ≠ '_') (hdot : rest.getLast? ≠ some '.') :
    emitFloat (['0', '_', '0', dch d] ++ rest) = some (['0', dch d] ++ rest) ∧
    ∀ g : Decimal, g.zigNumber → g.text ≠ ['0', dch d] ++ rest := by
  have hd := dch_not d
  have hlast : ∀ (xs : List Char) (c : Char), c ≠ 'i' → c ≠ '.' → (xs ++ c :: rest).getLast? ≠ some 'i' ∧
      (xs ++ c :: rest).getLast? ≠ some '.' := by
    intro xs c h1 h2
    rcases List.eq_nil_or_concat rest with rfl | ⟨ys, y, rfl⟩
    · simp [h1, h2]
    · rw [List.concat_eq_append] at hdot hr ⊢
      rw [← List.cons_append, ← List.append_assoc, List.getLast?_concat]
      rw [List.getLast?_concat] at hdot
      exact ⟨by simpa using (hr y (by simp)).1, hdot⟩
  constructor
  · unfold emitFloat
    rw [adjustFloat_core _ (by simp)]
    have hti : trimI (['0', '_', '0', dch d] ++ rest) = ['0', '_', '0', dch d] ++ rest := by
      unfold trimI
      rw [if_neg (by
        have := (hlast ['0', '_', '0'] (dch d) hd.2.2.1 hd.1).1
        simpa using this)]
    rw [hti]
    have hcore : core (['0', '_', '0', dch d] ++ rest) = some (['_', '0', dch d] ++ rest) := by
      show some (trailingZero (leadingZero ('_' :: '0' :: dch d :: rest))) = _
      have hl : leadingZero ('_' :: '0' :: dch d :: rest) = '_' :: '0' :: dch d :: rest := by simp [leadingZero]
      rw [hl]
      unfold trailingZero
      rw [if_neg (by
        have := (hlast ['_', '0'] (dch d) hd.2.2.1 hd.1).2
        simpa using this)]
      rfl
    rw [hcore]
    show some (dropUnderscores ('_' :: '0' :: dch d :: rest)) = _
    rw [drop_filter]
    have : rest.filter (fun c => c ≠ '_') = rest := List.filter_eq_self.2 (fun c hc => by simpa using (hr c hc).2)
    simp [hd.2.1]
    exact fun c hc => (hr c hc).2
  · intro g hg he
    rw [text_eq] at he
    cases hw : g.whole with
    | nil => exact hg.1.1 hw
    | cons x xs =>
      rw [hw] at he
      simp only [List.map_cons, List.cons_append, List.nil_append, List.cons.injEq] at he
      have hx : x = 0 := (dch_zero x).1 he.1
      have := hg.1.2 (by rw [hw, hx]; rfl)
      rw [hw] at this
      simp only [List.cons.injEq] at this
      rw [this.2] at he
      have h2 := tail_isD g (dch d) (by rw [show tailText g = dch d :: rest by simpa using he.2]; rfl)
      rw [isD_dch] at h2
      cases h2

/-- `0_01.5`, which Go allows, is written `01.5`. -/
example : underscored false ['0', '_', '0', '1', '.', '5'] ∧ emitFloat ['0', '_', '0', '1', '.', '5'] = some ['0', '1', '.', '5'] := by
  constructor
  · simp [underscored, Spec.isDigit]
  · decide

/-- **C164** fails for imaginary literals with underscores: `0_1i` is written as the name `_1`. -/
theorem imaginary_underscore_fails : emitImaginary ['0', '_', '1', 'i'] = some ['_', '1'] := by decide

end Verif.Zgo.Lit
