import Verif.Json.TextModel
import Verif.Json.TextSpec

/-! # Lemmas about JSON texts -/
namespace Verif.Json

theorem ofNat_toNat_lt (n : Nat) (h : n < 0xD800) : (Char.ofNat n).toNat = n := by
  have hv : n.isValidChar := Or.inl h
  simp [Char.ofNat, hv, Char.toNat, Char.ofNatAux]

theorem toNat_ofNat (c : Char) : Char.ofNat c.toNat = c := Char.ofNat_toNat c

theorem hexVal_hex {c : Char} {v : Nat} (h : Spec.Hex c v) : hexVal c = some v := by
  cases h with
  | digit k hk =>
    rw [hexVal, ofNat_toNat_lt _ (by omega), if_pos (by omega)]; congr 1; omega
  | upper k hk =>
    rw [hexVal, ofNat_toNat_lt _ (by omega), if_neg (by omega), if_pos (by omega)]; congr 1; omega
  | lower k hk =>
    rw [hexVal, ofNat_toNat_lt _ (by omega), if_neg (by omega), if_neg (by omega), if_pos (by omega)]; congr 1; omega

theorem hex_hexVal {c : Char} {v : Nat} (h : hexVal c = some v) : Spec.Hex c v := by
  unfold hexVal at h
  split at h
  · next hc =>
    obtain rfl := Option.some.inj h
    have := Spec.Hex.digit (c.toNat - 48) (by omega)
    rwa [show 48 + (c.toNat - 48) = c.toNat by omega, toNat_ofNat] at this
  · split at h
    · next hc =>
      obtain rfl := Option.some.inj h
      have := Spec.Hex.upper (c.toNat - 65) (by omega)
      rw [show 65 + (c.toNat - 65) = c.toNat by omega, toNat_ofNat] at this
      rwa [show c.toNat - 55 = 10 + (c.toNat - 65) by omega]
    · split at h
      · next hc =>
        obtain rfl := Option.some.inj h
        have := Spec.Hex.lower (c.toNat - 97) (by omega)
        rw [show 97 + (c.toNat - 97) = c.toNat by omega, toNat_ofNat] at this
        rwa [show c.toNat - 87 = 10 + (c.toNat - 97) by omega]
      · exact (nomatch h)

theorem hex4_hex {a b c d : Char} {v : Nat} (h : Spec.Hex4 [a, b, c, d] v) : hex4 a b c d = some v := by
  cases h with
  | mk _ _ _ _ i j k l ha hb hc hd =>
    rw [hex4, hexVal_hex ha, hexVal_hex hb, hexVal_hex hc, hexVal_hex hd]; rfl

theorem hex_hex4 {a b c d : Char} {v : Nat} (h : hex4 a b c d = some v) : Spec.Hex4 [a, b, c, d] v := by
  unfold hex4 at h
  cases ha : hexVal a with
  | none => rw [ha] at h; exact (nomatch h)
  | some i =>
    cases hb : hexVal b with
    | none => rw [ha, hb] at h; exact (nomatch h)
    | some j =>
      cases hc : hexVal c with
      | none => rw [ha, hb, hc] at h; exact (nomatch h)
      | some k =>
        cases hd : hexVal d with
        | none => rw [ha, hb, hc, hd] at h; exact (nomatch h)
        | some l =>
          rw [ha, hb, hc, hd] at h
          obtain rfl := Option.some.inj h
          exact .mk _ _ _ _ _ _ _ _ (hex_hexVal ha) (hex_hexVal hb) (hex_hexVal hc) (hex_hexVal hd)

theorem hexDigit_hex (n : Nat) (h : n < 16) : Spec.Hex (hexDigit n) n := by
  unfold hexDigit
  split
  · next hn => exact .digit n hn
  · next hn =>
    have := Spec.Hex.lower (n - 10) (by omega)
    rwa [show 97 + (n - 10) = 87 + n by omega, show 10 + (n - 10) = n by omega] at this

/-! ### Reading what is between the quotation marks -/

theorem lexStr_quote (r : Text) : lexStr ('"' :: r) = some ([], r) := by
  rw [lexStr.eq_def]; exact if_pos rfl

theorem lexStr_plain (c : Char) (r : Text) (h : 0x20 ≤ c.toNat) (hq : c ≠ '"') (hb : c ≠ '\\') :
    lexStr (c :: r) = (lexStr r).map fun p => (.ch c :: p.1, p.2) := by
  rw [lexStr.eq_def]; dsimp only
  rw [if_neg hq, if_neg hb, if_neg (by omega)]

theorem lexStr_unit (a b x d : Char) (n : Nat) (r : Text) (h : hex4 a b x d = some n) :
    lexStr ('\\' :: 'u' :: a :: b :: x :: d :: r) = (lexStr r).map fun p => (.unit n :: p.1, p.2) := by
  rw [lexStr.eq_def]; dsimp only
  rw [if_neg (by decide), if_pos rfl, if_pos rfl, h]

theorem lexStr_short (e k : Char) (r : Text) (hu : e ≠ 'u') (h : shortEsc e = some k) :
    lexStr ('\\' :: e :: r) = (lexStr r).map fun p => (.ch k :: p.1, p.2) := by
  rw [lexStr.eq_def]; dsimp only
  rw [if_neg (by decide), if_pos rfl, if_neg hu, h]

theorem short_esc {e : Char} {n : Nat} (h : (e, n) ∈ Spec.short) : e ≠ 'u' ∧ shortEsc e = some (Char.ofNat n) := by
  simp only [Spec.short, List.mem_cons, List.not_mem_nil, or_false, Prod.mk.injEq] at h
  rcases h with ⟨rfl, rfl⟩ | ⟨rfl, rfl⟩ | ⟨rfl, rfl⟩ | ⟨rfl, rfl⟩ | ⟨rfl, rfl⟩ | ⟨rfl, rfl⟩ | ⟨rfl, rfl⟩ | ⟨rfl, rfl⟩ <;>
    exact ⟨by decide, by decide⟩

theorem esc_short {e k : Char} (h : shortEsc e = some k) : ∃ n, (e, n) ∈ Spec.short := by
  unfold shortEsc at h
  split at h
  · next he =>
    rcases he with rfl | rfl | rfl
    · exact ⟨_, .head _⟩
    · exact ⟨_, .tail _ (.head _)⟩
    · exact ⟨_, .tail _ (.tail _ (.head _))⟩
  · repeat' split at h
    · next he => subst he; exact ⟨0x08, by decide⟩
    · next he => subst he; exact ⟨0x0C, by decide⟩
    · next he => subst he; exact ⟨0x0A, by decide⟩
    · next he => subst he; exact ⟨0x0D, by decide⟩
    · next he => subst he; exact ⟨0x09, by decide⟩
    · cases h

theorem hex4_shape {x : Text} {v : Nat} (h : Spec.Hex4 x v) : ∃ a b c d, x = [a, b, c, d] ∧ hex4 a b c d = some v := by
  cases h with
  | mk a b c d i j k l ha hb hc hd => exact ⟨a, b, c, d, rfl, hex4_hex (.mk _ _ _ _ _ _ _ _ ha hb hc hd)⟩

/-- A text that means something is read as that. -/
theorem lexStr_means {b m : Text} (h : Spec.Means b m) (r : Text) :
    ∃ is, lexStr (b ++ '"' :: r) = some (is, r) ∧ combine is = m := by
  induction h with
  | nil => exact ⟨[], lexStr_quote r, rfl⟩
  | plain c t m hc hq hb _ ih =>
    obtain ⟨is, h1, h2⟩ := ih
    exact ⟨.ch c :: is, by rw [List.cons_append, lexStr_plain c _ hc hq hb, h1]; rfl, by rw [combine, h2]⟩
  | short e n t m he _ ih =>
    obtain ⟨is, h1, h2⟩ := ih
    obtain ⟨hu, hk⟩ := short_esc he
    exact ⟨.ch _ :: is, by rw [List.cons_append, List.cons_append, lexStr_short e _ _ hu hk, h1]; rfl, by rw [combine, h2]⟩
  | unit x v t m hx hv _ ih =>
    obtain ⟨is, h1, h2⟩ := ih
    obtain ⟨a, b, c, d, rfl, hh⟩ := hex4_shape hx
    refine ⟨.unit v :: is, ?_, ?_⟩
    · show lexStr ('\\' :: 'u' :: a :: b :: c :: d :: (t ++ '"' :: r)) = _
      rw [lexStr_unit _ _ _ _ _ _ hh, h1]; rfl
    · rw [combine.eq_def]; dsimp only; rw [if_pos hv, h2]
  | pair x y v w t m hx hy hv hw _ ih =>
    obtain ⟨is, h1, h2⟩ := ih
    obtain ⟨a, b, c, d, rfl, hh⟩ := hex4_shape hx
    obtain ⟨a', b', c', d', rfl, hh'⟩ := hex4_shape hy
    refine ⟨.unit v :: .unit w :: is, ?_, ?_⟩
    · show lexStr ('\\' :: 'u' :: a :: b :: c :: d :: '\\' :: 'u' :: a' :: b' :: c' :: d' :: (t ++ '"' :: r)) = _
      rw [lexStr_unit _ _ _ _ _ _ hh, lexStr_unit _ _ _ _ _ _ hh', h1]; rfl
    · rw [combine.eq_def]; dsimp only; rw [if_neg (by omega), if_pos (by omega), h2]

/-- Whatever is read is grammatical, up to the closing quotation mark. -/
theorem lexStr_grammar : ∀ (n : Nat) (t : Text), t.length ≤ n → ∀ is r, lexStr t = some (is, r) →
    ∃ b, Spec.Grammar b ∧ t = b ++ '"' :: r := by
  intro n
  induction n with
  | zero =>
    intro t ht is r h
    cases t with
    | nil => exact (nomatch h)
    | cons c t => simp at ht
  | succ n ih =>
    intro t ht is r h
    cases t with
    | nil => exact (nomatch h)
    | cons c t =>
      by_cases hq : c = '"'
      · subst hq
        rw [lexStr_quote] at h
        obtain ⟨-, rfl⟩ := Prod.mk.inj (Option.some.inj h)
        exact ⟨[], .nil, rfl⟩
      by_cases hb : c = '\\'
      · subst hb
        cases t with
        | nil =>
          have e : lexStr ['\\'] = none := by decide
          rw [e] at h; cases h
        | cons e t =>
          by_cases hu : e = 'u'
          · subst hu
            rw [lexStr.eq_def] at h; dsimp only at h
            rw [if_neg (by decide), if_pos rfl, if_pos rfl] at h
            split at h
            · next a b x d r'' =>
              split at h
              · next v hv =>
                cases hr : lexStr r'' with
                | none => rw [hr] at h; exact (nomatch h)
                | some p =>
                  rw [hr] at h
                  obtain ⟨-, rfl⟩ := Prod.mk.inj (Option.some.inj h)
                  obtain ⟨b', hg, he⟩ := ih r'' (by simp at ht; omega) p.1 p.2 hr
                  exact ⟨_, .unit [a, b, x, d] v b' (hex_hex4 hv) hg, by rw [he]; rfl⟩
              · exact (nomatch h)
            · exact (nomatch h)
          · cases hk : shortEsc e with
            | none =>
              rw [lexStr.eq_def] at h; dsimp only at h
              rw [if_neg (by decide), if_pos rfl, if_neg hu, hk] at h
              exact (nomatch h)
            | some k =>
              rw [lexStr_short e k t hu hk] at h
              cases hr : lexStr t with
              | none => rw [hr] at h; exact (nomatch h)
              | some p =>
                rw [hr] at h
                obtain ⟨-, rfl⟩ := Prod.mk.inj (Option.some.inj h)
                obtain ⟨b', hg, he⟩ := ih t (by simp at ht; omega) p.1 p.2 hr
                obtain ⟨v, hv⟩ := esc_short hk
                exact ⟨_, .short e v b' hv hg, by rw [he]; rfl⟩
      by_cases hc : c.toNat < 0x20
      · rw [lexStr.eq_def] at h; dsimp only at h
        rw [if_neg hq, if_neg hb, if_pos hc] at h
        exact (nomatch h)
      · rw [lexStr_plain c t (by omega) hq hb] at h
        cases hr : lexStr t with
        | none => rw [hr] at h; exact (nomatch h)
        | some p =>
          rw [hr] at h
          obtain ⟨-, rfl⟩ := Prod.mk.inj (Option.some.inj h)
          obtain ⟨b', hg, he⟩ := ih t (by simp at ht; omega) p.1 p.2 hr
          exact ⟨_, .plain c b' (by omega) hq hb hg, by rw [he]; rfl⟩

/-! ### Writing -/

theorem escChar_means (c : Char) (t m : Text) (h : Spec.Means t m) : Spec.Means (escChar c ++ t) (c :: m) := by
  unfold escChar
  split; · next he => subst he; exact .short '"' 0x22 t m (by decide) h
  split; · next he => subst he; exact .short '\\' 0x5C t m (by decide) h
  split; · next he => subst he; exact .short 'b' 0x08 t m (by decide) h
  split; · next he => subst he; exact .short 'f' 0x0C t m (by decide) h
  split; · next he => subst he; exact .short 'n' 0x0A t m (by decide) h
  split; · next he => subst he; exact .short 'r' 0x0D t m (by decide) h
  split; · next he => subst he; exact .short 't' 0x09 t m (by decide) h
  split
  · next he =>
    have hlt : c.toNat < 0x80 := by
      rcases he with he | rfl | rfl | rfl
      · omega
      all_goals decide
    have hx : Spec.Hex4 ['0', '0', hexDigit (c.toNat / 16), hexDigit (c.toNat % 16)] (c.toNat) := by
      have := Spec.Hex4.mk '0' '0' (hexDigit (c.toNat / 16)) (hexDigit (c.toNat % 16)) 0 0 (c.toNat / 16) (c.toNat % 16)
        (.digit 0 (by omega)) (.digit 0 (by omega)) (hexDigit_hex _ (by omega)) (hexDigit_hex _ (by omega))
      rwa [show 0 * 4096 + 0 * 256 + c.toNat / 16 * 16 + c.toNat % 16 = c.toNat by omega] at this
    have := Spec.Means.unit _ _ t m hx (.inl (by omega)) h
    rw [toNat_ofNat] at this
    exact this
  split
  · next he =>
    have hx : Spec.Hex4 ['2', '0', '2', hexDigit (c.toNat % 16)] (c.toNat) := by
      have := Spec.Hex4.mk '2' '0' '2' (hexDigit (c.toNat % 16)) 2 0 2 (c.toNat % 16)
        (.digit 2 (by omega)) (.digit 0 (by omega)) (.digit 2 (by omega)) (hexDigit_hex _ (by omega))
      rwa [show 2 * 4096 + 0 * 256 + 2 * 16 + c.toNat % 16 = c.toNat by omega] at this
    have := Spec.Means.unit _ _ t m hx (.inl (by omega)) h
    rw [toNat_ofNat] at this
    exact this
  · next hq hb _ _ _ _ _ hc _ => exact .plain c t m (by omega) hq hb h

theorem escText_means (m : Text) : Spec.Means ((ofText m).flatMap escUnit) m := by
  induction m with
  | nil => exact .nil
  | cons c m ih => exact escChar_means c _ m ih

theorem marshalString_text (m : Text) : Spec.StringText (marshalString (ofText m)) m :=
  ⟨_, escText_means m, rfl⟩

theorem marshalElems_text : ∀ ms : List Text, ms ≠ [] → Spec.Elements (marshalElems (ms.map ofText)) ms
  | [], h => absurd rfl h
  | [m], _ => by
    have := Spec.Elements.last [] [] _ m (by simp [Spec.Blank]) (by simp [Spec.Blank]) (marshalString_text m)
    rw [List.nil_append, List.append_nil] at this
    exact this
  | m :: m' :: ms, _ => by
    have := Spec.Elements.more [] [] _ m _ (m' :: ms) (by simp [Spec.Blank]) (by simp [Spec.Blank]) (marshalString_text m)
      (marshalElems_text (m' :: ms) (by simp))
    rw [List.nil_append, List.append_nil] at this
    exact this

/-! ### White space and arrays -/

theorem isBlank_iff (c : Char) : isBlank c = true ↔ c.toNat = 0x20 ∨ c.toNat = 0x09 ∨ c.toNat = 0x0A ∨ c.toNat = 0x0D := by
  have key : ∀ (n : Nat) (k : Char), k.toNat = n → (c = k ↔ c.toNat = n) := by
    intro n k hk
    refine ⟨fun h => by rw [h, hk], fun h => ?_⟩
    rw [← toNat_ofNat c, h, ← hk, toNat_ofNat]
  simp only [isBlank, Bool.or_eq_true, decide_eq_true_eq]
  rw [key 0x20 ' ' rfl, key 0x09 '\t' rfl, key 0x0A '\n' rfl, key 0x0D '\r' rfl]
  omega

theorem skip_blank (w t : Text) (h : Spec.Blank w) : skip (w ++ t) = skip t := by
  induction w with
  | nil => rfl
  | cons c w ih =>
    rw [List.cons_append, skip, if_pos ((isBlank_iff c).2 (h c (List.mem_cons_self ..)))]
    exact ih fun d hd => h d (List.mem_cons_of_mem _ hd)

theorem skip_id (c : Char) (t : Text) (h : isBlank c = false) : skip (c :: t) = c :: t := by
  rw [skip, h]; rfl

theorem skip_split (t : Text) : ∃ w, Spec.Blank w ∧ t = w ++ skip t := by
  induction t with
  | nil => exact ⟨[], by simp [Spec.Blank], rfl⟩
  | cons c t ih =>
    rw [skip]
    split
    · next h =>
      obtain ⟨w, hw, he⟩ := ih
      refine ⟨c :: w, ?_, by rw [List.cons_append, ← he]⟩
      intro d hd
      rcases List.mem_cons.1 hd with rfl | hd
      · exact (isBlank_iff _).1 h
      · exact hw d hd
    · exact ⟨[], by simp [Spec.Blank], rfl⟩

theorem readElem_string (old : GoStr) (s m r : Text) (h : Spec.StringText s m) : readElem old (s ++ r) = some (ofText m, r) := by
  obtain ⟨b, hb, rfl⟩ := h
  obtain ⟨is, h1, h2⟩ := lexStr_means hb r
  have e : '"' :: (b ++ ['"']) ++ r = '"' :: (b ++ '"' :: r) := by simp
  rw [e]
  show (lexStr (b ++ '"' :: r)).map _ = _
  rw [h1]; simp [h2]

theorem skip_string (s m r : Text) (h : Spec.StringText s m) : skip (s ++ r) = s ++ r := by
  obtain ⟨b, hb, rfl⟩ := h
  exact skip_id '"' _ (by decide)

theorem readElems_text {t : Text} {ms : List Text} (h : Spec.Elements t ms) : ∀ (n : Nat) (old : List GoStr) (r : Text),
    ms.length ≤ n → readElems n old (t ++ r) = some (ms.map ofText, r) := by
  induction h with
  | last w w' s m hw hw' hs =>
    intro n old r hn
    obtain ⟨n, rfl⟩ : ∃ k, n = k + 1 := ⟨n - 1, by simp at hn; omega⟩
    have e : w ++ s ++ w' ++ [']'] ++ r = w ++ (s ++ (w' ++ ']' :: r)) := by simp
    have e1 : readElem (old.headD []) (skip (w ++ s ++ w' ++ [']'] ++ r)) = some (ofText m, w' ++ ']' :: r) := by
      rw [e, skip_blank w _ hw, skip_string s m _ hs, readElem_string _ s m _ hs]
    have e2 : skip (w' ++ ']' :: r) = ']' :: r := by rw [skip_blank w' _ hw', skip_id _ _ (by decide)]
    rw [readElems, e1]; dsimp only; rw [e2]; rfl
  | more w w' s m t ms hw hw' hs _ ih =>
    intro n old r hn
    obtain ⟨n, rfl⟩ : ∃ k, n = k + 1 := ⟨n - 1, by simp at hn; omega⟩
    have e : w ++ s ++ w' ++ ',' :: t ++ r = w ++ (s ++ (w' ++ ',' :: (t ++ r))) := by simp
    have e1 : readElem (old.headD []) (skip (w ++ s ++ w' ++ ',' :: t ++ r)) = some (ofText m, w' ++ ',' :: (t ++ r)) := by
      rw [e, skip_blank w _ hw, skip_string s m _ hs, readElem_string _ s m _ hs]
    have e2 : skip (w' ++ ',' :: (t ++ r)) = ',' :: (t ++ r) := by rw [skip_blank w' _ hw', skip_id _ _ (by decide)]
    rw [readElems, e1]; dsimp only; rw [e2]
    show (readElems n old.tail (t ++ r)).map _ = _
    rw [ih n _ r (by simp at hn; omega)]; rfl

theorem elements_length {t : Text} {ms : List Text} (h : Spec.Elements t ms) : ms.length ≤ t.length := by
  induction h with
  | last w w' s m hw hw' hs => simp; omega
  | more w w' s m t ms hw hw' hs _ ih => simp; omega

theorem elements_head {t : Text} {ms : List Text} (h : Spec.Elements t ms) (r : Text) : ∃ t', skip (t ++ r) = '"' :: t' := by
  cases h with
  | last w w' s m hw hw' hs =>
    have e : w ++ s ++ w' ++ [']'] ++ r = w ++ (s ++ (w' ++ ']' :: r)) := by simp
    rw [e, skip_blank w _ hw, skip_string s m _ hs]
    obtain ⟨b, -, rfl⟩ := hs
    exact ⟨_, rfl⟩
  | more w w' s m t ms hw hw' hs _ =>
    have e : w ++ s ++ w' ++ ',' :: t ++ r = w ++ (s ++ (w' ++ ',' :: (t ++ r))) := by simp
    rw [e, skip_blank w _ hw, skip_string s m _ hs]
    obtain ⟨b, -, rfl⟩ := hs
    exact ⟨_, rfl⟩

theorem unmarshalArray_text (old : List GoStr) {t : Text} {ms : List Text} (h : Spec.ArrayText t ms) :
    unmarshalArray old t = some (some (ms.map ofText)) := by
  cases h with
  | empty w hw =>
    have e : skip (w ++ [']']) = [']'] := by rw [skip_blank w _ hw]; rfl
    unfold unmarshalArray
    rw [skip_id _ _ (by decide)]
    show readArray old (w ++ [']']) = _
    unfold readArray
    rw [e]; rfl
  | some t ms h =>
    obtain ⟨t', ht'⟩ := elements_head h []
    rw [List.append_nil] at ht'
    have hr := readElems_text h (t.length + 1) old [] (Nat.le_succ_of_le (elements_length h))
    rw [List.append_nil] at hr
    unfold unmarshalArray
    rw [skip_id _ _ (by decide)]
    show readArray old t = _
    unfold readArray
    rw [ht', hr]; rfl

theorem unmarshalString_text {t m : Text} (h : Spec.StringText t m) : unmarshalString t = some (ofText m) := by
  obtain ⟨b, hb, rfl⟩ := h
  obtain ⟨is, h1, h2⟩ := lexStr_means hb []
  unfold unmarshalString
  show (match lexStr (b ++ ['"']) with
    | some (is, r') => if skip r' = [] then some (ofText (combine is)) else none
    | none => none) = _
  rw [h1, ← h2]; rfl

/-! ### Nothing else is read -/

theorem readElem_grammar {old s : GoStr} {t r : Text} (h : readElem old t = some (s, r)) :
    ∃ e, Spec.ElementGrammar e ∧ t = e ++ r := by
  unfold readElem at h
  split at h
  · next t' =>
    cases hr : lexStr t' with
    | none => rw [hr] at h; cases h
    | some p =>
      rw [hr] at h
      obtain ⟨-, rfl⟩ := Prod.mk.inj (Option.some.inj h)
      obtain ⟨b, hb, rfl⟩ := lexStr_grammar _ t' (Nat.le_refl _) _ _ hr
      exact ⟨'"' :: (b ++ ['"']), .string b hb, by simp⟩
  · obtain ⟨-, rfl⟩ := Prod.mk.inj (Option.some.inj h)
    exact ⟨['n', 'u', 'l', 'l'], .null, rfl⟩
  · cases h

theorem readElems_grammar : ∀ (n : Nat) (old ss : List GoStr) (t r : Text), readElems n old t = some (ss, r) →
    ∃ e, Spec.ElementsGrammar e ss.length ∧ t = e ++ r := by
  intro n
  induction n with
  | zero => intro old ss t r h; cases h
  | succ n ih =>
    intro old ss t r h
    obtain ⟨w, hw, ht⟩ := skip_split t
    rw [readElems] at h
    cases he : readElem (old.headD []) (skip t) with
    | none => rw [he] at h; cases h
    | some p =>
      obtain ⟨s, t1⟩ := p
      rw [he] at h; dsimp only at h
      obtain ⟨e, hg, h1⟩ := readElem_grammar he
      obtain ⟨w', hw', h2⟩ := skip_split t1
      split at h
      · next r' hr' =>
        obtain ⟨rfl, rfl⟩ := Prod.mk.inj (Option.some.inj h)
        exact ⟨w ++ e ++ w' ++ [']'], .last w w' e hw hw' hg, by rw [ht, h1, h2, hr']; simp⟩
      · next r' hr' =>
        cases hr : readElems n old.tail r' with
        | none => rw [hr] at h; cases h
        | some q =>
          rw [hr] at h
          obtain ⟨rfl, rfl⟩ := Prod.mk.inj (Option.some.inj h)
          obtain ⟨e', hg', h3⟩ := ih old.tail q.1 r' q.2 hr
          exact ⟨w ++ e ++ w' ++ ',' :: e', .more w w' e e' _ hw hw' hg hg', by rw [ht, h1, h2, hr', h3]; simp⟩
      · cases h

theorem skip_nil {t : Text} (h : skip t = []) : Spec.Blank t := by
  obtain ⟨w, hw, ht⟩ := skip_split t
  rw [h, List.append_nil] at ht
  rwa [ht]

end Verif.Json
