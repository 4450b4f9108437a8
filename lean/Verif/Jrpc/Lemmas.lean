import Verif.Jrpc.Model
import Verif.Jrpc.Spec

/-! Lemmas for the JSON codec. -/
namespace Verif.Jrpc

theorem and_mask (x k : Nat) : x &&& (2 ^ k - 1) = x % 2 ^ k := Nat.and_two_pow_sub_one_eq_mod x k
theorem and_3f (x : Nat) : x &&& 0x3F = x % 64 := and_mask x 6
theorem and_1f (x : Nat) : x &&& 0x1F = x % 32 := and_mask x 5
theorem and_0f (x : Nat) : x &&& 0x0F = x % 16 := and_mask x 4
theorem and_07 (x : Nat) : x &&& 0x07 = x % 8 := and_mask x 3

theorem shl_or (a b k : Nat) (h : b < 2 ^ k) : a <<< k ||| b = a * 2 ^ k + b := by
  rw [Nat.shiftLeft_eq, Nat.mul_comm, ← Nat.two_pow_add_eq_or_of_lt h]

theorem ofNat_toNat (b : UInt8) {n : Nat} (h : n = b.toNat) : UInt8.ofNat n = b := by
  subst h; simp

theorem toNat_ofNat {n : Nat} (h : n < 256) : (UInt8.ofNat n).toNat = n := by
  rw [UInt8.toNat_ofNat']; exact Nat.mod_eq_of_lt h

theorem utf8_len_pos (c : Nat) : 1 ≤ (utf8 c).length := by
  unfold utf8; repeat' split
  all_goals simp

theorem acceptLo_ge (p : Nat) : 0x80 ≤ acceptLo p := by
  unfold acceptLo; split
  · omega
  · split <;> omega

theorem acceptHi_le (p : Nat) : acceptHi p ≤ 0xBF := by
  unfold acceptHi; split
  · omega
  · split <;> omega

/-- `decodeRune` finds every well-formed sequence. -/
theorem decodeRune_complete (c : Nat) (hc : Scalar c) (t : List UInt8) :
    decodeRune (utf8 c ++ t) = (c, (utf8 c).length) := by
  unfold Scalar at hc
  unfold utf8
  split
  · rename_i h
    simp only [List.cons_append, List.nil_append, decodeRune, toNat_ofNat (show c < 256 by omega), if_pos h]
    rfl
  · split
    · rename_i h1 h2
      have e0 := toNat_ofNat (show 0xC0 + c / 64 < 256 by omega)
      have e1 := toNat_ofNat (show 0x80 + c % 64 < 256 by omega)
      simp only [List.cons_append, List.nil_append, decodeRune, within, e0, e1, and_1f, and_3f]
      rw [if_neg (by omega), if_neg (by omega), if_pos (by omega), if_pos (by simp; omega), shl_or _ _ _ (by omega)]
      simp; omega
    · split
      · rename_i h1 h2 h3
        have e0 := toNat_ofNat (show 0xE0 + c / 4096 < 256 by omega)
        have e1 := toNat_ofNat (show 0x80 + c / 64 % 64 < 256 by omega)
        have e2 := toNat_ofNat (show 0x80 + c % 64 < 256 by omega)
        simp only [List.cons_append, List.nil_append, decodeRune, within, e0, e1, e2, and_0f, and_3f]
        rw [if_neg (by omega), if_neg (by omega), if_neg (by omega), if_pos (by omega)]
        rw [if_pos, shl_or _ _ 6 (by omega), shl_or _ _ 12 (by omega)]
        · simp; omega
        · simp only [Bool.and_eq_true, decide_eq_true_eq]
          unfold acceptLo acceptHi
          refine ⟨⟨?_, ?_⟩, by omega, by omega⟩
          · split <;> (try split) <;> omega
          · split <;> (try split) <;> omega
      · rename_i h1 h2 h3
        have e0 := toNat_ofNat (show 0xF0 + c / 262144 < 256 by omega)
        have e1 := toNat_ofNat (show 0x80 + c / 4096 % 64 < 256 by omega)
        have e2 := toNat_ofNat (show 0x80 + c / 64 % 64 < 256 by omega)
        have e3 := toNat_ofNat (show 0x80 + c % 64 < 256 by omega)
        simp only [List.cons_append, List.nil_append, decodeRune, within, e0, e1, e2, e3, and_07, and_3f]
        rw [if_neg (by omega), if_neg (by omega), if_neg (by omega), if_neg (by omega)]
        rw [if_pos, shl_or _ _ 6 (by omega), shl_or _ _ 12 (by omega), shl_or _ _ 18 (by omega)]
        · simp; omega
        · simp only [Bool.and_eq_true, decide_eq_true_eq]
          unfold acceptLo acceptHi
          refine ⟨⟨⟨?_, ?_⟩, by omega, by omega⟩, by omega, by omega⟩
          · split <;> (try split) <;> omega
          · split <;> (try split) <;> omega

/-- What `decodeRune` finds is a well-formed sequence, or the ill-formed marker. -/
theorem decodeRune_sound (b : UInt8) (t : List UInt8) :
    ((decodeRune (b :: t)).1 = 0xFFFD ∧ (decodeRune (b :: t)).2 = 1) ∨
    (Scalar (decodeRune (b :: t)).1 ∧ (b :: t).take (decodeRune (b :: t)).2 = utf8 (decodeRune (b :: t)).1) := by
  have hb := b.toNat_lt
  unfold decodeRune
  dsimp only
  split
  · right
    rename_i h
    refine ⟨.inl (by dsimp only; omega), ?_⟩
    simp only [List.take_succ_cons, List.take_zero, utf8, if_pos h]
    simp
  · split
    · left; exact ⟨rfl, rfl⟩
    · split
      · split
        · rename_i b1 u
          split
          · right
            rename_i h1 h2 h3 h4
            have hb1 := b1.toNat_lt
            simp only [within, Bool.and_eq_true, decide_eq_true_eq] at h4
            rw [and_1f, and_3f, shl_or _ _ _ (by omega)]
            refine ⟨.inl (by dsimp only; omega), ?_⟩
            simp only [List.take_succ_cons, List.take_zero]
            unfold utf8
            rw [if_neg (by omega), if_pos (by omega), ofNat_toNat b (by omega), ofNat_toNat b1 (by omega)]
          · left; exact ⟨rfl, rfl⟩
        · left; exact ⟨rfl, rfl⟩
      · split
        · split
          · rename_i b1 b2 u
            split
            · right
              rename_i h1 h2 h3 h5 h4
              have hb1 := b1.toNat_lt
              have hb2 := b2.toNat_lt
              simp only [within, Bool.and_eq_true, decide_eq_true_eq] at h4
              rw [and_0f, and_3f, and_3f, shl_or _ _ 6 (by omega), shl_or _ _ 12 (by omega)]
              obtain ⟨⟨g1, g2⟩, g3, g4⟩ := h4
              have hlo : b.toNat = 0xE0 → 0xA0 ≤ b1.toNat := by intro e; rw [e] at g1; simpa [acceptLo] using g1
              have hlo2 : 0x80 ≤ b1.toNat := Nat.le_trans (acceptLo_ge _) g1
              have hhi : b.toNat = 0xED → b1.toNat ≤ 0x9F := by intro e; rw [e] at g2; simpa [acceptHi] using g2
              have hhi2 : b1.toNat ≤ 0xBF := Nat.le_trans g2 (acceptHi_le _)
              refine ⟨?_, ?_⟩
              · unfold Scalar; dsimp only; omega
              simp only [List.take_succ_cons, List.take_zero]
              unfold utf8
              rw [if_neg (by omega), if_neg (by omega), if_pos (by omega), ofNat_toNat b (by omega), ofNat_toNat b1 (by omega),
                ofNat_toNat b2 (by omega)]
            · left; exact ⟨rfl, rfl⟩
          · left; exact ⟨rfl, rfl⟩
        · split
          · rename_i b1 b2 b3 u
            split
            · right
              rename_i h1 h2 h3 h5 h4
              have hb1 := b1.toNat_lt
              have hb2 := b2.toNat_lt
              have hb3 := b3.toNat_lt
              simp only [within, Bool.and_eq_true, decide_eq_true_eq] at h4
              rw [and_07, and_3f, and_3f, and_3f, shl_or _ _ 6 (by omega), shl_or _ _ 12 (by omega), shl_or _ _ 18 (by omega)]
              obtain ⟨⟨⟨g1, g2⟩, g3, g4⟩, g5, g6⟩ := h4
              have hlo : b.toNat = 0xF0 → 0x90 ≤ b1.toNat := by intro e; rw [e] at g1; simpa [acceptLo] using g1
              have hlo2 : 0x80 ≤ b1.toNat := Nat.le_trans (acceptLo_ge _) g1
              have hhi : b.toNat = 0xF4 → b1.toNat ≤ 0x8F := by intro e; rw [e] at g2; simpa [acceptHi] using g2
              have hhi2 : b1.toNat ≤ 0xBF := Nat.le_trans g2 (acceptHi_le _)
              refine ⟨?_, ?_⟩
              · unfold Scalar; dsimp only; omega
              simp only [List.take_succ_cons, List.take_zero]
              unfold utf8
              rw [if_neg (by omega), if_neg (by omega), if_neg (by omega), ofNat_toNat b (by omega), ofNat_toNat b1 (by omega),
                ofNat_toNat b2 (by omega), ofNat_toNat b3 (by omega)]
            · left; exact ⟨rfl, rfl⟩
          · left; exact ⟨rfl, rfl⟩

theorem utf8_ascii {c : Nat} (h : c < 0x80) : utf8 c = [UInt8.ofNat c] := by unfold utf8; rw [if_pos h]

/-- The first byte of a longer sequence is not ASCII. -/
theorem utf8_high {c : Nat} (hc : Scalar c) (h : ¬ c < 0x80) : ∃ b u, utf8 c = b :: u ∧ 0x80 ≤ b.toNat := by
  unfold Scalar at hc
  unfold utf8
  rw [if_neg h]
  split
  · exact ⟨_, _, rfl, by rw [toNat_ofNat (by omega)]; omega⟩
  · split
    · exact ⟨_, _, rfl, by rw [toNat_ofNat (by omega)]; omega⟩
    · exact ⟨_, _, rfl, by rw [toNat_ofNat (by omega)]; omega⟩

/-- What the encoder looks at first, in terms of the specification. -/
theorem decodeRune_cases (b : UInt8) (t : List UInt8) (hb : ¬ b.toNat < 0x80) :
    ((decodeRune (b :: t)).1 = 0xFFFD ∧ (decodeRune (b :: t)).2 = 1 ∧ ∀ c, Scalar c → ∀ u, b :: t ≠ utf8 c ++ u) ∨
    (Scalar (decodeRune (b :: t)).1 ∧ 0x80 ≤ (decodeRune (b :: t)).1 ∧ ¬ ((decodeRune (b :: t)).1 = 0xFFFD ∧ (decodeRune (b :: t)).2 = 1) ∧
      b :: t = utf8 (decodeRune (b :: t)).1 ++ (b :: t).drop (decodeRune (b :: t)).2 ∧
      (b :: t).take (decodeRune (b :: t)).2 = utf8 (decodeRune (b :: t)).1) := by
  by_cases hbad : (decodeRune (b :: t)).1 = 0xFFFD ∧ (decodeRune (b :: t)).2 = 1
  · left
    refine ⟨hbad.1, hbad.2, fun c hc u e => ?_⟩
    have := decodeRune_complete c hc u
    rw [← e] at this
    rw [this] at hbad
    obtain ⟨h1, h2⟩ := hbad
    simp only at h1 h2
    subst h1
    simp [utf8] at h2
  · right
    rcases decodeRune_sound b t with h | ⟨h1, h2⟩
    · exact absurd h hbad
    · refine ⟨h1, ?_, hbad, ?_, h2⟩
      · apply Classical.byContradiction
        intro hlt
        rw [utf8_ascii (by omega)] at h2
        have hs := decodeRune_size b t
        obtain ⟨k, hk⟩ : ∃ k, (decodeRune (b :: t)).2 = k + 1 := ⟨(decodeRune (b :: t)).2 - 1, by omega⟩
        rw [hk, List.take_succ_cons] at h2
        have := (List.cons.inj h2).1
        rw [this] at hb
        rw [toNat_ofNat (by omega)] at hb
        omega
      · rw [← h2]; simp

/-! ### Strings -/

theorem strLoop_pend (pend s : List UInt8) : strLoop pend s = pend ++ strLoop [] s := by
  induction h : s.length using Nat.strongRecOn generalizing pend s with
  | _ n ih =>
    cases s with
    | nil => rw [strLoop, strLoop]; simp
    | cons b t =>
      rw [strLoop, strLoop]
      have hs := decodeRune_size b t
      have hlt : ((b :: t).drop (decodeRune (b :: t)).2).length < n := by
        subst h; simp only [List.length_drop, List.length_cons]; omega
      have hlt' : t.length < n := by subst h; simp
      split
      · split
        · rw [ih _ hlt' (pend ++ [b]) t rfl, ih _ hlt' ([] ++ [b]) t rfl]; simp
        · simp
      · dsimp only
        split
        · simp
        · split
          · simp
          · rw [ih _ hlt (pend ++ _) _ rfl, ih _ hlt ([] ++ _) _ rfl]; simp

theorem Decoded.exists (s : List UInt8) : ∃ cs, Decoded s cs := by
  induction h : s.length using Nat.strongRecOn generalizing s with
  | _ n ih =>
    cases s with
    | nil => exact ⟨[], .nil⟩
    | cons b t =>
      by_cases hc : ∃ c, Scalar c ∧ ∃ u, b :: t = utf8 c ++ u
      · obtain ⟨c, hc, u, e⟩ := hc
        have hlen : u.length < n := by
          rw [← h, e]; have := utf8_len_pos c; simp; omega
        obtain ⟨cs, hcs⟩ := ih _ hlen u rfl
        exact ⟨c :: cs, by rw [e]; exact .scalar c u cs hc hcs⟩
      · obtain ⟨cs, hcs⟩ := ih t.length (by rw [← h]; simp) t rfl
        refine ⟨0xFFFD :: cs, .bad b t cs ?_ hcs⟩
        intro c hc' u e
        exact hc ⟨c, hc', u, e⟩

theorem hexDigit_ok {n : Nat} (h : n < 16) : HexDigit (hexDigit n) n := by
  unfold HexDigit hexDigit
  split
  · left; exact ⟨by omega, by rw [toNat_ofNat (by omega)]⟩
  · right; exact ⟨by omega, h, .inr (by rw [toNat_ofNat (by omega)])⟩

/-- The escape of one ASCII byte denotes that byte. -/
theorem escape_chars (b : UInt8) (hb : b.toNat ≤ 31 ∨ b = 34 ∨ b = 92) {t : List UInt8} {cs : List Nat} (h : Chars false t cs) :
    Chars false (92 :: (escape b ++ t)) (b.toNat :: cs) := by
  unfold escape
  split
  · rename_i hx
    refine .short b b.toNat t cs ?_ h
    rcases hx with rfl | rfl <;> simp
  · split
    · rename_i hx; subst hx; exact .short 110 10 t cs (by simp) h
    · split
      · rename_i hx; subst hx; exact .short 114 13 t cs (by simp) h
      · split
        · rename_i hx; subst hx; exact .short 116 9 t cs (by simp) h
        · rename_i h1 _ _ _
          have hlt : b.toNat ≤ 31 := by
            rcases hb with h | h | h
            · exact h
            · exact absurd (.inr h) h1
            · exact absurd (.inl h) h1
          have e1 : b.toNat >>> 4 = b.toNat / 16 := Nat.shiftRight_eq_div_pow _ _
          have e2 : b.toNat &&& 0xF = b.toNat % 16 := and_0f _
          have hz : HexDigit 48 0 := .inl ⟨by omega, rfl⟩
          have := Chars.hex 48 48 (hexDigit (b.toNat >>> 4)) (hexDigit (b.toNat &&& 0xF)) 0 0 (b.toNat / 16) (b.toNat % 16) t cs
            hz hz (by rw [e1]; exact hexDigit_ok (by omega)) (by rw [e2]; exact hexDigit_ok (by omega)) (.inl (by omega)) h
          have e3 : ((0 * 16 + 0) * 16 + b.toNat / 16) * 16 + b.toNat % 16 = b.toNat := by omega
          rw [e3] at this
          exact this

theorem utf8_prefix_eq {c : Nat} (hc : Scalar c) {t u : List UInt8} {c' : Nat} (hc' : Scalar c') (h : utf8 c ++ t = utf8 c' ++ u) :
    c = c' ∧ t = u := by
  have h1 := decodeRune_complete c hc t
  have h2 := decodeRune_complete c' hc' u
  rw [h] at h1
  rw [h1] at h2
  have hcc : c = c' := (Prod.mk.inj h2).1
  subst hcc
  exact ⟨rfl, List.append_cancel_left h⟩

/-- The inside of the encoded string denotes the code points of the input. -/
theorem strLoop_chars {s : List UInt8} {cs : List Nat} (h : Decoded s cs) : ∃ t, strLoop [] s = t ++ [34] ∧ Chars false t cs := by
  induction h with
  | nil => exact ⟨[], by rw [strLoop], .nil⟩
  | scalar c t cs hc _ ih =>
    obtain ⟨w, hw, hch⟩ := ih
    by_cases hlow : c < 0x80
    · rw [utf8_ascii hlow]
      have e : (UInt8.ofNat c).toNat = c := toNat_ofNat (by omega)
      simp only [List.cons_append, List.nil_append]
      rw [strLoop, e, if_pos hlow]
      split
      · rename_i hn
        simp only [not_or] at hn
        rw [strLoop_pend, hw]
        refine ⟨[UInt8.ofNat c] ++ w, by simp, ?_⟩
        rw [← utf8_ascii hlow]
        refine .raw c w cs hc (by omega) ?_ ?_ hch
        · rintro rfl; exact hn.2.1 rfl
        · rintro rfl; exact hn.2.2 rfl
      · rename_i hn
        have hn : c ≤ 31 ∨ UInt8.ofNat c = 34 ∨ UInt8.ofNat c = 92 := Classical.not_not.mp hn
        rw [hw]
        have := escape_chars (UInt8.ofNat c) (by rw [e]; exact hn) hch
        rw [e] at this
        exact ⟨92 :: (escape (UInt8.ofNat c) ++ w), by simp, this⟩
    · obtain ⟨b, u, hbu, hb⟩ := utf8_high hc hlow
      have hd := decodeRune_complete c hc t
      have hdrop : (utf8 c ++ t).drop (utf8 c).length = t := by simp
      have htake : (utf8 c ++ t).take (utf8 c).length = utf8 c := by simp
      have hlen : (utf8 c).length ≠ 1 ∨ c ≠ 0xFFFD := by
        by_cases e : c = 0xFFFD
        · left; subst e; simp [utf8]
        · right; exact e
      generalize hq : utf8 c ++ t = q at *
      cases q with
      | nil => rw [hbu] at hq; simp at hq
      | cons b' q =>
        have hbb : b' = b := by rw [hbu] at hq; exact (List.cons.inj hq).1.symm
        subst hbb
        rw [strLoop, if_neg (by omega)]
        dsimp only
        rw [hd]
        dsimp only
        rw [if_neg (by rintro ⟨x, y⟩; rcases hlen with z | z; exact z y; exact z x)]
        split
        · rename_i hx
          rw [hdrop, hw]
          have hz : HexDigit 48 0 := .inl ⟨by omega, rfl⟩
          have h2 : HexDigit 50 2 := .inl ⟨by omega, rfl⟩
          have hand : c &&& 0xF = c % 16 := and_0f c
          have := Chars.hex 50 48 50 (hexDigit (c &&& 0xF)) 2 0 2 (c % 16) w cs h2 hz h2 (by rw [hand]; exact hexDigit_ok (by omega))
            (.inl (by omega)) hch
          have e3 : ((2 * 16 + 0) * 16 + 2) * 16 + c % 16 = c := by omega
          rw [e3] at this
          exact ⟨_, by simp, this⟩
        · rw [htake, hdrop, strLoop_pend, hw]
          refine ⟨utf8 c ++ w, by simp, .raw c w cs hc (by omega) (by omega) (by omega) hch⟩
  | bad b t cs hbad _ ih =>
    obtain ⟨w, hw, hch⟩ := ih
    have hb : ¬ b.toNat < 0x80 := by
      intro hlt
      refine hbad b.toNat (.inl (by omega)) t ?_
      rw [utf8_ascii hlt]; simp
    rw [strLoop, if_neg hb]
    dsimp only
    rcases decodeRune_cases b t hb with ⟨h1, h2, _⟩ | ⟨h1, _, _, h3, _⟩
    · rw [if_pos ⟨h1, h2⟩, hw]
      have hf : HexDigit 102 15 := .inr ⟨by omega, by omega, .inr rfl⟩
      have hd : HexDigit 100 13 := .inr ⟨by omega, by omega, .inr rfl⟩
      have := Chars.hex 102 102 102 100 15 15 15 13 w cs hf hf hf hd (.inr (by omega)) hch
      exact ⟨_, by simp, this⟩
    · exact absurd h3 (hbad _ h1 _)

end Verif.Jrpc
