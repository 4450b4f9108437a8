import Verif.Rest.UrlModel
import Verif.Rest.MuxLemmas
/-!
# Escaping and unescaping
-/
namespace Verif.Rest

/-- A byte. -/
def IsByte (c : Char) : Prop := c.toNat < 256

theorem pct_round (q : Bool) (c : Char) (h : IsByte c) (s : Str) :
    unescape q (pctEncode c ++ s) = (unescape q s).map (c :: ·) := by
  have key : ∀ n : Fin 256, unhex (hexDigit (n.val / 16)) = some (n.val / 16) ∧
      unhex (hexDigit (n.val % 16)) = some (n.val % 16) := by decide +kernel
  obtain ⟨h1, h2⟩ := key ⟨c.toNat, h⟩
  simp only [pctEncode, List.cons_append, List.nil_append, unescape, h1, h2]
  have : c.toNat / 16 * 16 + c.toNat % 16 = c.toNat := by omega
  rw [this, Char.ofNat_toNat]

theorem unescape_plain (q : Bool) (c : Char) (h1 : c ≠ '%') (h2 : q = true → c ≠ '+') (s : Str) :
    unescape q (c :: s) = (unescape q s).map (c :: ·) := by
  rw [unescape.eq_def]
  split
  · simp_all
  · simp_all
  · simp_all
  · next c' s' _ _ heq =>
    injection heq with e1 e2; subst e1; subst e2
    have : ¬ (q = true ∧ c = '+') := fun ⟨a, b⟩ => h2 a b
    simp [this]

theorem unescape_plus (s : Str) :
    unescape true ('+' :: s) = (unescape true s).map (' ' :: ·) := by
  rw [unescape.eq_def]
  split
  · simp_all
  · simp_all
  · simp_all
  · next c' s' _ _ heq =>
    injection heq with e1 e2; subst e1; subst e2
    simp

theorem unreserved_ne {c d : Char} (h : unreserved c = true) (hd : unreserved d = false) : c ≠ d := by
  rintro rfl; simp [h] at hd

theorem segPlain_ne {c d : Char} (h : segPlain c = true) (hd : segPlain d = false) : c ≠ d := by
  rintro rfl; simp [h] at hd

/-- What a query escapes is what it unescapes. -/
theorem query_round (s : Str) (h : ∀ c ∈ s, IsByte c) : unescape true (queryEscape s) = some s := by
  induction s with
  | nil => rfl
  | cons c s ih =>
    have ih := ih (fun d hd => h d (List.mem_cons_of_mem _ hd))
    rw [queryEscape]
    split
    · next hu =>
      rw [List.cons_append, List.nil_append, unescape_plain true c
        (unreserved_ne hu (by decide)) (fun _ => unreserved_ne hu (by decide)), ih]; rfl
    · split
      · next hc => rw [List.cons_append, List.nil_append, unescape_plus, ih, hc]; rfl
      · rw [pct_round true c (h c (List.mem_cons_self ..)), ih]; rfl

/-- What a path segment escapes is what the path unescapes. -/
theorem path_round (s t : Str) (h : ∀ c ∈ s, IsByte c) :
    unescape false (pathEscape s ++ t) = (unescape false t).map (s ++ ·) := by
  induction s with
  | nil => simp [pathEscape]
  | cons c s ih =>
    have ih := ih (fun d hd => h d (List.mem_cons_of_mem _ hd))
    rw [pathEscape, List.append_assoc]
    split
    · next hu =>
      rw [List.cons_append, List.nil_append, unescape_plain false c
        (segPlain_ne hu (by decide)) (by simp), ih, Option.map_map]; rfl
    · rw [pct_round false c (h c (List.mem_cons_self ..)), ih, Option.map_map]; rfl

theorem pct_safe (c : Char) (h : IsByte c) : ∀ d ∈ pctEncode c, d = '%' ∨ unreserved d = true := by
  have key : ∀ n : Fin 256, unreserved (hexDigit (n.val / 16)) = true ∧
      unreserved (hexDigit (n.val % 16)) = true := by decide +kernel
  obtain ⟨h1, h2⟩ := key ⟨c.toNat, h⟩
  intro d hd
  simp only [pctEncode, List.mem_cons, List.not_mem_nil, or_false] at hd
  rcases hd with rfl | rfl | rfl
  · exact Or.inl rfl
  · exact Or.inr h1
  · exact Or.inr h2

/-- Which characters an escaped segment has. -/
theorem pathEscape_safe (s : Str) (h : ∀ c ∈ s, IsByte c) :
    ∀ d ∈ pathEscape s, d = '%' ∨ segPlain d = true := by
  induction s with
  | nil => simp [pathEscape]
  | cons c s ih =>
    intro d hd
    rw [pathEscape, List.mem_append] at hd
    rcases hd with hd | hd
    · split at hd
      · next hu => rw [List.mem_singleton] at hd; rw [hd]; exact Or.inr hu
      · rcases pct_safe c (h c (List.mem_cons_self ..)) d hd with h | h
        · exact Or.inl h
        · exact Or.inr (by simp [segPlain, h])
    · exact ih (fun e he => h e (List.mem_cons_of_mem _ he)) d hd

theorem pathEscape_not_mem (s : Str) (h : ∀ c ∈ s, IsByte c) (d : Char) (h1 : d ≠ '%')
    (h2 : segPlain d = false) : d ∉ pathEscape s := by
  intro hd
  rcases pathEscape_safe s h d hd with h | h
  · exact h1 h
  · rw [h] at h2; exact absurd h2 (by decide)

/-- Which characters an escaped query component has. -/
theorem queryEscape_safe (s : Str) (h : ∀ c ∈ s, IsByte c) :
    ∀ d ∈ queryEscape s, d = '%' ∨ d = '+' ∨ unreserved d = true := by
  induction s with
  | nil => simp [queryEscape]
  | cons c s ih =>
    intro d hd
    rw [queryEscape, List.mem_append] at hd
    rcases hd with hd | hd
    · split at hd
      · next hu => rw [List.mem_singleton] at hd; rw [hd]; exact Or.inr (Or.inr hu)
      · split at hd
        · rw [List.mem_singleton] at hd; exact Or.inr (Or.inl hd)
        · rcases pct_safe c (h c (List.mem_cons_self ..)) d hd with h | h
          · exact Or.inl h
          · exact Or.inr (Or.inr h)
    · exact ih (fun e he => h e (List.mem_cons_of_mem _ he)) d hd

theorem queryEscape_not_mem (s : Str) (h : ∀ c ∈ s, IsByte c) (d : Char) (h1 : d ≠ '%') (h3 : d ≠ '+')
    (h2 : unreserved d = false) : d ∉ queryEscape s := by
  intro hd
  rcases queryEscape_safe s h d hd with h | h | h
  · exact h1 h
  · exact h3 h
  · rw [h] at h2; exact absurd h2 (by decide)

theorem cut_at (sep : Char) (a b : Str) (h : sep ∉ a) : cut sep (a ++ sep :: b) = (a, b, true) := by
  induction a with
  | nil => simp [cut]
  | cons c a ih =>
    rw [List.mem_cons, not_or] at h
    rw [List.cons_append, cut, if_neg (fun e => h.1 e.symm), ih h.2]

theorem split_at (sep : Char) (a b : Str) (h : sep ∉ a) :
    split sep (a ++ sep :: b) = a :: split sep b := by
  induction a with
  | nil => simp [split]
  | cons c a ih =>
    rw [List.mem_cons, not_or] at h
    rw [List.cons_append, split, if_neg (fun e => h.1 e.symm), ih h.2]

theorem split_whole (sep : Char) (a : Str) (h : sep ∉ a) : split sep a = [a] := by
  induction a with
  | nil => rfl
  | cons c a ih =>
    rw [List.mem_cons, not_or] at h
    rw [split, if_neg (fun e => h.1 e.symm), ih h.2]

/-- Joining and splitting again. -/
theorem split_join (sep : Char) : ∀ ps : List Str, ps ≠ [] → (∀ p ∈ ps, sep ∉ p) →
    split sep (join sep ps) = ps
  | [], h, _ => absurd rfl h
  | [x], _, h => split_whole sep x (h x (List.mem_cons_self ..))
  | x :: y :: xs, _, h => by
    rw [join, split_at sep x _ (h x (List.mem_cons_self ..)),
      split_join sep (y :: xs) (by simp) (fun p hp => h p (List.mem_cons_of_mem _ hp))]

/-- Keys and values of bytes. -/
def BytePair (p : Str × Str) : Prop := (∀ c ∈ p.1, IsByte c) ∧ (∀ c ∈ p.2, IsByte c)

theorem parsePair_text (p : Str × Str) (h : BytePair p) : parsePair (pairText p) = some p := by
  have hs : ';' ∉ pairText p := by
    unfold pairText
    rw [List.mem_append, List.mem_cons, not_or, not_or]
    exact ⟨queryEscape_not_mem _ h.1 _ (by decide) (by decide) (by decide), by decide,
      queryEscape_not_mem _ h.2 _ (by decide) (by decide) (by decide)⟩
  have hn : pairText p ≠ [] := by simp [pairText]
  unfold parsePair
  rw [if_neg (by simp [hs, hn])]
  have : cut '=' (pairText p) = (queryEscape p.1, queryEscape p.2, true) :=
    cut_at _ _ _ (queryEscape_not_mem _ h.1 _ (by decide) (by decide) (by decide))
  simp only [this, query_round _ h.1, query_round _ h.2]

theorem filterMap_id_of {α : Type} {f : α → Option α} {l : List α} (h : ∀ x ∈ l, f x = some x) :
    l.filterMap f = l := by
  induction l with
  | nil => rfl
  | cons x xs ih =>
    rw [List.filterMap_cons, h x (List.mem_cons_self ..)]
    simp only [ih (fun y hy => h y (List.mem_cons_of_mem _ hy))]

theorem mem_insertPair {x p : Str × Str} {l : List (Str × Str)} :
    x ∈ insertPair p l ↔ x = p ∨ x ∈ l := by
  induction l with
  | nil => simp [insertPair]
  | cons y l ih =>
    rw [insertPair]
    split
    · simp only [List.mem_cons, ih]
      constructor <;> rintro (h | h | h) <;> simp [h]
    · simp

theorem mem_sortPairs {x : Str × Str} {q : List (Str × Str)} : x ∈ sortPairs q ↔ x ∈ q := by
  induction q with
  | nil => simp [sortPairs]
  | cons p q ih =>
    have : sortPairs (p :: q) = insertPair p (sortPairs q) := rfl
    rw [this, mem_insertPair, ih, List.mem_cons]

theorem parse_encode (q : List (Str × Str)) (h : ∀ p ∈ q, BytePair p) :
    parseQuery (encodeValues q) = sortPairs q := by
  unfold parseQuery encodeValues
  generalize hq : sortPairs q = l
  have hl : ∀ p ∈ l, BytePair p := fun p hp => h p (mem_sortPairs.mp (hq ▸ hp))
  cases l with
  | nil => rfl
  | cons x xs =>
    rw [split_join '&' _ (by simp)]
    · rw [List.filterMap_map]
      have : ∀ p ∈ x :: xs, (parsePair ∘ pairText) p = some p := fun p hp => parsePair_text p (hl p hp)
      exact filterMap_id_of this
    · intro t ht
      obtain ⟨p, hp, rfl⟩ := List.mem_map.mp ht
      have := hl p hp
      unfold pairText
      rw [List.mem_append, List.mem_cons, not_or, not_or]
      exact ⟨queryEscape_not_mem _ this.1 _ (by decide) (by decide) (by decide), by decide,
        queryEscape_not_mem _ this.2 _ (by decide) (by decide) (by decide)⟩

theorem encodeValues_not_mem (q : List (Str × Str)) (h : ∀ p ∈ q, BytePair p) (d : Char)
    (h1 : d ≠ '%') (h3 : d ≠ '+') (h4 : d ≠ '&') (h5 : d ≠ '=') (h2 : unreserved d = false) :
    d ∉ encodeValues q := by
  unfold encodeValues
  generalize hq : sortPairs q = l
  have hl : ∀ p ∈ l, BytePair p := fun p hp => h p (mem_sortPairs.mp (hq ▸ hp))
  clear hq
  have hp : ∀ p ∈ l, d ∉ pairText p := by
    intro p hp
    have := hl p hp
    unfold pairText
    rw [List.mem_append, List.mem_cons, not_or, not_or]
    exact ⟨queryEscape_not_mem _ this.1 _ h1 h3 h2, h5, queryEscape_not_mem _ this.2 _ h1 h3 h2⟩
  clear hl
  induction l with
  | nil => simp [join]
  | cons x xs ih =>
    have ih := ih (fun p h => hp p (List.mem_cons_of_mem _ h))
    cases xs with
    | nil => simpa [join] using hp x (List.mem_cons_self ..)
    | cons y ys =>
      simp only [List.map_cons, join] at ih ⊢
      rw [List.mem_append, List.mem_cons, not_or, not_or]
      exact ⟨hp x (List.mem_cons_self ..), h4, ih⟩

/-- Sorting by key keeps the values of each key in order. -/
theorem valuesOf_sorted (q : List (Str × Str)) (key : Str) :
    valuesOf (sortPairs q) key = valuesOf q key := by
  have ins : ∀ (p : Str × Str) (l : List (Str × Str)), valuesOf (insertPair p l) key = valuesOf (p :: l) key := by
    intro p l
    induction l with
    | nil => rfl
    | cons x l ih =>
      rw [insertPair]
      split
      · next hlt =>
        unfold valuesOf at ih ⊢
        by_cases hx : x.1 = key
        · by_cases hp : p.1 = key
          · rw [hx, hp] at hlt; exact absurd hlt (List.lt_irrefl _)
          · simp only [List.filter_cons, hp, decide_false, Bool.false_eq_true, if_false] at ih ⊢
            simp only [hx, decide_true, if_true, List.map_cons, ih]
        · simp only [List.filter_cons, hx, decide_false, Bool.false_eq_true, if_false] at ih ⊢
          exact ih
      · rfl
  induction q with
  | nil => rfl
  | cons p q ih =>
    have : sortPairs (p :: q) = insertPair p (sortPairs q) := rfl
    rw [this, ins]
    unfold valuesOf at ih ⊢
    simp only [List.filter_cons]
    split <;> simp [ih]

/-- What a query carries: the values of every key, in order. -/
theorem query_carries (q : List (Str × Str)) (h : ∀ p ∈ q, BytePair p) (key : Str) :
    valuesOf (parseQuery (encodeValues q)) key = valuesOf q key := by
  rw [parse_encode q h, valuesOf_sorted]

end Verif.Rest
