import Verif.Zgo.OpSpec

/-! # zgo operators: helper lemmas -/
namespace Verif.Zgo.Op
open Spec

theorem mono_all (n : Nat) :
    (∀ low ts r, parsePrec n low ts = some r → parsePrec (n + 1) low ts = some r) ∧
    (∀ ts r, parsePrefix n ts = some r → parsePrefix (n + 1) ts = some r) ∧
    (∀ low b e ts r, parseLoop n low b e ts = some r → parseLoop (n + 1) low b e ts = some r) := by
  induction n with
  | zero =>
    refine ⟨?_, ?_, ?_⟩
    · intro low ts r h; simp [parsePrec] at h
    · intro ts r h; simp [parsePrefix] at h
    · intro low b e ts r h; simp [parseLoop] at h
  | succ n ih =>
    obtain ⟨h1, h2, h3⟩ := ih
    refine ⟨?_, ?_, ?_⟩
    · intro low ts r h
      rw [parsePrec] at h ⊢
      cases hp : parsePrefix n ts with
      | none => simp [hp] at h
      | some x =>
        obtain ⟨e, rest⟩ := x
        simp only [hp] at h
        rw [h2 _ _ hp]
        exact h3 _ _ _ _ _ h
    · intro ts r h
      unfold parsePrefix at h ⊢
      split at h
      · exact h
      · rename_i rest
        split at h
        · rename_i e rest' hp
          simp only [h1 _ _ _ hp]; exact h
        · cases h
      · rename_i rest
        cases hp : parsePrefix n rest with
        | none => simp [hp] at h
        | some x => simp only [h2 _ _ hp]; rw [hp] at h; exact h
      · rename_i rest
        cases hp : parsePrefix n rest with
        | none => simp [hp] at h
        | some x => simp only [h2 _ _ hp]; rw [hp] at h; exact h
      · cases h
    · intro low b e ts r h
      unfold parseLoop at h ⊢
      cases ts with
      | nil => exact h
      | cons t rest =>
        simp only at h ⊢
        cases hz : zigBinary t with
        | none => rw [hz] at h; exact h
        | some x =>
          obtain ⟨s, prec⟩ := x
          rw [hz] at h
          simp only at h ⊢
          by_cases hl : prec < low
          · rw [if_pos hl] at h ⊢; exact h
          · rw [if_neg hl] at h ⊢
            by_cases hb : b = some prec
            · rw [if_pos hb] at h; cases h
            · rw [if_neg hb] at h ⊢
              cases hp : parsePrec n (prec + 1) rest with
              | none => simp [hp] at h
              | some y =>
                obtain ⟨r', rest'⟩ := y
                rw [hp] at h
                rw [h1 _ _ _ hp]
                exact h3 _ _ _ _ _ h

theorem prec_mono {n m low ts r} (hm : n ≤ m) (h : parsePrec n low ts = some r) : parsePrec m low ts = some r := by
  induction hm with
  | refl => exact h
  | step _ ih => exact (mono_all _).1 _ _ _ ih

theorem prefix_mono {n m ts r} (hm : n ≤ m) (h : parsePrefix n ts = some r) : parsePrefix m ts = some r := by
  induction hm with
  | refl => exact h
  | step _ ih => exact (mono_all _).2.1 _ _ ih

theorem loop_mono {n m low b e ts r} (hm : n ≤ m) (h : parseLoop n low b e ts = some r) :
    parseLoop m low b e ts = some r := by
  induction hm with
  | refl => exact h
  | step _ ih => exact (mono_all _).2.2 _ _ _ _ _ ih

theorem reads_unique {ts : List Tok} {a b : Expr} (ha : ZigReads ts a) (hb : ZigReads ts b) : a = b := by
  obtain ⟨n, hn⟩ := ha
  obtain ⟨m, hm⟩ := hb
  have h1 := prec_mono (Nat.le_max_left n m) hn
  have h2 := prec_mono (Nat.le_max_right n m) hm
  rw [h1] at h2
  injection h2 with h2
  injection h2

/-! ## What the parser returns -/

/-- The precedence of the operator at the head of the tokens, zero if there is none. -/
def headPrec : List Tok → Nat
  | [] => 0
  | t :: _ => ((zigBinary t).map Prod.snd).getD 0

theorem binary_prec {t : Tok} {s : Sym} {p : Nat} (h : zigBinary t = some (s, p)) : zigPrec s = some p ∧ 10 ≤ p ∧ p ≤ 70 := by
  cases t with
  | atom _ => simp [zigBinary] at h
  | lpar => simp [zigBinary] at h
  | rpar => simp [zigBinary] at h
  | kwAnd => simp [zigBinary] at h; obtain ⟨rfl, rfl⟩ := h; decide
  | kwOr => simp [zigBinary] at h; obtain ⟨rfl, rfl⟩ := h; decide
  | sym s => cases s <;> simp [zigBinary] at h <;> (obtain ⟨rfl, rfl⟩ := h; decide)

theorem headPrec_cons {t : Tok} {s : Sym} {p : Nat} {rest : List Tok} (h : zigBinary t = some (s, p)) :
    headPrec (t :: rest) = p := by simp [headPrec, h]

theorem sound_all (n : Nat) :
    (∀ low ts e rest, parsePrec n low ts = some (e, rest) → ZigTree e ∧ (low ≤ 80 → low ≤ zigTop e) ∧
      (headPrec rest < low ∨ headPrec rest = 0)) ∧
    (∀ ts e rest, parsePrefix n ts = some (e, rest) → ZigTree e ∧ zigTop e = 80) ∧
    (∀ low b e ts e' rest, ZigTree e → (low ≤ 80 → low ≤ zigTop e) → (zigTop e = 30 → b = some 30) → headPrec ts ≤ zigTop e →
      parseLoop n low b e ts = some (e', rest) → ZigTree e' ∧ (low ≤ 80 → low ≤ zigTop e') ∧
      (headPrec rest < low ∨ headPrec rest = 0)) := by
  induction n with
  | zero =>
    refine ⟨?_, ?_, ?_⟩
    · intro low ts e rest h; simp [parsePrec] at h
    · intro ts e rest h; simp [parsePrefix] at h
    · intro low b e ts e' rest _ _ _ _ h; simp [parseLoop] at h
  | succ n ih =>
    obtain ⟨h1, h2, h3⟩ := ih
    refine ⟨?_, ?_, ?_⟩
    · intro low ts e rest h
      rw [parsePrec] at h
      cases hp : parsePrefix n ts with
      | none => simp [hp] at h
      | some x =>
        obtain ⟨e0, rest0⟩ := x
        simp only [hp] at h
        obtain ⟨ht, htop⟩ := h2 _ _ _ hp
        refine h3 low none e0 rest0 e rest ht (by omega) (by omega) ?_ h
        rw [htop]
        cases rest0 with
        | nil => simp [headPrec]
        | cons t r =>
          cases hz : zigBinary t with
          | none => simp [headPrec, hz]
          | some x => obtain ⟨s, p⟩ := x; rw [headPrec_cons hz]; have := binary_prec hz; omega
    · intro ts e rest h
      unfold parsePrefix at h
      split at h
      · simp at h; obtain ⟨rfl, rfl⟩ := h; simp [ZigTree, zigTop]
      · split at h
        · rename_i e0 rest' hp
          simp at h; obtain ⟨rfl, rfl⟩ := h
          exact ⟨(h1 _ _ _ _ hp).1, rfl⟩
        · cases h
      · rename_i r
        cases hp : parsePrefix n r with
        | none => simp [hp] at h
        | some x =>
          rw [hp] at h; simp at h; obtain ⟨rfl, rfl⟩ := h
          exact ⟨⟨Or.inl rfl, (h2 _ x.1 x.2 hp).1, (h2 _ x.1 x.2 hp).2⟩, rfl⟩
      · rename_i r
        cases hp : parsePrefix n r with
        | none => simp [hp] at h
        | some x =>
          rw [hp] at h; simp at h; obtain ⟨rfl, rfl⟩ := h
          exact ⟨⟨Or.inr rfl, (h2 _ x.1 x.2 hp).1, (h2 _ x.1 x.2 hp).2⟩, rfl⟩
      · cases h
    · intro low b e ts e' rest ht hlow hban hhead h
      unfold parseLoop at h
      cases ts with
      | nil => simp at h; obtain ⟨rfl, rfl⟩ := h; exact ⟨ht, hlow, by simp [headPrec]⟩
      | cons t r =>
        simp only at h
        cases hz : zigBinary t with
        | none =>
          rw [hz] at h; simp at h; obtain ⟨rfl, rfl⟩ := h
          exact ⟨ht, hlow, by simp [headPrec, hz]⟩
        | some x =>
          obtain ⟨s, prec⟩ := x
          rw [hz] at h
          simp only at h
          rw [headPrec_cons hz] at hhead
          obtain ⟨hs, hp1, hp2⟩ := binary_prec hz
          by_cases hl : prec < low
          · rw [if_pos hl] at h
            simp at h; obtain ⟨rfl, rfl⟩ := h
            exact ⟨ht, hlow, by rw [headPrec_cons hz]; exact Or.inl hl⟩
          · rw [if_neg hl] at h
            by_cases hb : b = some prec
            · rw [if_pos hb] at h; cases h
            · rw [if_neg hb] at h
              cases hp : parsePrec n (prec + 1) r with
              | none => simp [hp] at h
              | some y =>
                obtain ⟨er, rest'⟩ := y
                rw [hp] at h
                obtain ⟨k1, k2, k3⟩ := h1 _ _ _ _ hp
                have htop : zigTop (.bin s e er) = prec := by simp [zigTop, hs]
                refine h3 low _ (.bin s e er) rest' e' rest ?_ ?_ ?_ ?_ h
                · refine ⟨prec, hs, ht, k1, ?_, by have := k2 (by omega); omega⟩
                  by_cases hna : nonAssoc prec = true
                  · rw [if_pos hna]
                    simp only [nonAssoc, beq_iff_eq] at hna
                    subst hna
                    rcases Nat.lt_or_ge 30 (zigTop e) with h | h
                    · exact h
                    · exact absurd (hban (by omega)) hb
                  · rw [if_neg hna]; exact hhead
                · rw [htop]; omega
                · rw [htop]; intro h30
                  simp [nonAssoc, h30]
                · rw [htop]; omega

theorem reads_tree {ts : List Tok} {e : Expr} (h : ZigReads ts e) : ZigTree e := by
  obtain ⟨n, hn⟩ := h
  exact ((sound_all n).1 _ _ _ _ hn).1

/-! ## Reading back -/

theorem emitBinary_tok {s : Sym} {p : Nat} (h : zigPrec s = some p) : ∃ t, emitBinary s = [t] ∧ zigBinary t = some (s, p) := by
  cases s <;> simp [zigPrec] at h <;> (subst h; exact ⟨_, rfl, rfl⟩)

theorem top_le (e : Expr) : zigTop e ≤ 80 := by
  cases e with
  | bin s l r => cases s <;> simp [zigTop, zigPrec]
  | _ => simp [zigTop]

theorem read_all (e : Expr) : ZigTree e →
    (zigTop e = 80 → ∀ rest, ∃ n, parsePrefix n (emit e ++ rest) = some (e, rest)) ∧
    (∀ low rest, low ≤ zigTop e → headPrec rest ≤ zigTop e → ∃ b, (b = none ∨ (b = some 30 ∧ zigTop e ≤ 30)) ∧
      ∀ n res, parseLoop n low b e rest = some res → ∃ m, parsePrec m low (emit e ++ rest) = some res) := by
  -- an operand that a prefix parse reads
  have lift : ∀ e : Expr, (∀ rest, ∃ n, parsePrefix n (emit e ++ rest) = some (e, rest)) →
      ∀ low rest, low ≤ zigTop e → headPrec rest ≤ zigTop e → ∃ b, (b = none ∨ (b = some 30 ∧ zigTop e ≤ 30)) ∧
      ∀ n res, parseLoop n low b e rest = some res → ∃ m, parsePrec m low (emit e ++ rest) = some res := by
    intro e hp low rest _ _
    refine ⟨none, Or.inl rfl, ?_⟩
    intro n res h
    obtain ⟨k, hk⟩ := hp rest
    refine ⟨max n k + 1, ?_⟩
    rw [parsePrec, prefix_mono (Nat.le_max_right n k) hk]
    exact loop_mono (Nat.le_max_left n k) h
  induction e with
  | atom a =>
    intro _
    have hp : ∀ rest, ∃ n, parsePrefix n (emit (.atom a) ++ rest) = some (.atom a, rest) :=
      fun rest => ⟨1, by simp [emit, parsePrefix]⟩
    exact ⟨fun _ => hp, lift _ hp⟩
  | par e ih =>
    intro ht
    have hp : ∀ rest, ∃ n, parsePrefix n (emit (.par e) ++ rest) = some (.par e, rest) := by
      intro rest
      obtain ⟨b, _, hb⟩ := (ih ht).2 0 (.rpar :: rest) (Nat.zero_le _) (by simp [headPrec, zigBinary])
      obtain ⟨m, hm⟩ := hb 1 (e, .rpar :: rest) (by simp [parseLoop, zigBinary])
      refine ⟨m + 1, ?_⟩
      have : emit (.par e) ++ rest = .lpar :: (emit e ++ .rpar :: rest) := by simp [emit]
      rw [this, parsePrefix]
      simp [hm]
    exact ⟨fun _ => hp, lift _ hp⟩
  | un s e ih =>
    intro ht
    obtain ⟨hs, he, htop⟩ := ht
    have hp : ∀ rest, ∃ n, parsePrefix n (emit (.un s e) ++ rest) = some (.un s e, rest) := by
      intro rest
      obtain ⟨n, hn⟩ := (ih he).1 htop rest
      refine ⟨n + 1, ?_⟩
      rcases hs with rfl | rfl <;> simp [emit, parsePrefix, hn]
    exact ⟨fun _ => hp, lift _ hp⟩
  | bin s l r ihl ihr =>
    rintro ⟨p, hs, hl, hr, hpl, hpr⟩
    have htop : zigTop (.bin s l r) = p := by simp [zigTop, hs]
    obtain ⟨t, ht1, ht2⟩ := emitBinary_tok hs
    obtain ⟨_, hp1, hp2⟩ := binary_prec ht2
    refine ⟨by rw [htop]; omega, ?_⟩
    intro low rest hlow hhead
    rw [htop] at hlow hhead
    have hle : p ≤ zigTop l := by
      by_cases h : nonAssoc p = true
      · rw [if_pos h] at hpl; omega
      · rw [if_neg h] at hpl; exact hpl
    obtain ⟨bl, hbl, hrl⟩ := (ihl hl).2 low (t :: (emit r ++ rest)) (by omega) (by rw [headPrec_cons ht2]; exact hle)
    obtain ⟨br, _, hrr⟩ := (ihr hr).2 (p + 1) rest (by omega) (by omega)
    have hnb : bl ≠ some p := by
      rcases hbl with rfl | ⟨rfl, h30⟩
      · simp
      · intro h
        injection h with h
        subst h
        simp [nonAssoc] at hpl
        omega
    refine ⟨if nonAssoc p then some p else bl, ?_, ?_⟩
    · by_cases h : nonAssoc p = true
      · rw [if_pos h]
        simp only [nonAssoc, beq_iff_eq] at h
        subst h
        exact Or.inr ⟨rfl, by omega⟩
      · rw [if_neg h]
        rcases hbl with rfl | ⟨rfl, h30⟩
        · exact Or.inl rfl
        · exact Or.inr ⟨rfl, by rw [htop]; omega⟩
    · intro n res hloop
      -- the right operand
      obtain ⟨m, hm⟩ : ∃ m, parsePrec m (p + 1) (emit r ++ rest) = some (r, rest) := by
        apply hrr 1
        rw [parseLoop.eq_def]
        cases rest with
        | nil => rfl
        | cons t' rest' =>
          simp only
          cases hz : zigBinary t' with
          | none => rfl
          | some x =>
            obtain ⟨s', p'⟩ := x
            rw [headPrec_cons hz] at hhead
            simp only
            rw [if_pos (by omega)]
      have hgo : parseLoop (max n m + 1) low bl l (t :: (emit r ++ rest)) = some res := by
        rw [parseLoop]
        simp only [ht2]
        rw [if_neg (by omega), if_neg hnb, prec_mono (Nat.le_max_right n m) hm]
        exact loop_mono (Nat.le_max_left n m) hloop
      obtain ⟨k, hk⟩ := hrl _ _ hgo
      refine ⟨k, ?_⟩
      have : emit (.bin s l r) ++ rest = emit l ++ t :: (emit r ++ rest) := by
        simp [emit, ht1]
      rw [this]; exact hk

theorem reads_of_tree {e : Expr} (h : ZigTree e) : ZigReads (emit e) e := by
  obtain ⟨b, _, hb⟩ := (read_all e h).2 0 [] (Nat.zero_le _) (Nat.zero_le _)
  obtain ⟨m, hm⟩ := hb 1 (e, []) (by simp [parseLoop])
  exact ⟨m, by simpa using hm⟩

end Verif.Zgo.Op
