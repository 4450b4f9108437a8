import Verif.Jrpc.Lemmas2
import Verif.Jrpc.Spec2

/-! Lemmas: the encoder writes JSON; the decoder reads it back. -/
namespace Verif.Jrpc

/-! ### The encoder writes JSON -/

theorem Chars.lift {t : List UInt8} {cs : List Nat} (h : Chars false t cs) : Chars true t cs := by
  induction h with
  | nil => exact .nil
  | raw c t cs h1 h2 h3 h4 _ ih => exact .raw c t cs h1 h2 h3 h4 ih
  | short e c t cs h _ ih => exact .short e c t cs h ih
  | hex a b c d n1 n2 n3 n4 t cs h1 h2 h3 h4 h5 _ ih => exact .hex a b c d n1 n2 n3 n4 t cs h1 h2 h3 h4 h5 ih
  | pair => contradiction

theorem Decoded.unique {s cs} (h : Decoded s cs) : ∀ {cs'}, Decoded s cs' → cs = cs' := by
  induction h with
  | nil =>
    intro cs' h'
    generalize hs : ([] : List UInt8) = s at h'
    cases h' with
    | nil => rfl
    | scalar c t cs _ _ =>
      have := utf8_len_pos c
      have := congrArg List.length hs
      simp at this; omega
    | bad b t cs => cases hs
  | scalar c t cs hc _ ih =>
    intro cs' h'
    generalize hs : utf8 c ++ t = s at h'
    cases h' with
    | nil =>
      have := utf8_len_pos c
      have := congrArg List.length hs
      rw [List.length_append, List.length_nil] at this; omega
    | scalar c2 t2 cs2 hc2 h2 =>
      obtain ⟨rfl, rfl⟩ := utf8_prefix_eq hc hc2 hs
      rw [ih h2]
    | bad b t2 cs2 hb _ => exact absurd hs.symm (hb c hc t)
  | bad b t cs hb _ ih =>
    intro cs' h'
    generalize hs : b :: t = s at h'
    cases h' with
    | nil => cases hs
    | scalar c2 t2 cs2 hc2 h2 => exact absurd hs (hb c2 hc2 t2)
    | bad b2 t2 cs2 _ h2 => cases hs; rw [ih h2]

theorem std_b64_unique {a n m} (h1 : B64 a n) (h2 : B64 a m) : n = m := by
  unfold B64 at h1 h2; omega

theorem b64_unique {a b n} (h1 : B64 a n) (h2 : B64 b n) : a = b := by
  apply UInt8.toNat_inj.mp
  unfold B64 at h1 h2; omega

theorem Base64.unique {t b} (h : Base64 t b) : ∀ {t'}, Base64 t' b → t = t' := by
  induction h with
  | nil => intro t' h'; cases h'; rfl
  | full a b c d x y z n1 n2 n3 n4 t u h1 h2 h3 h4 he _ ih =>
    intro t' h'
    cases h' with
    | full a' b' c' d' _ _ _ m1 m2 m3 m4 t' _ g1 g2 g3 g4 ge gt =>
      have := ih gt
      have l : ∀ {a n}, B64 a n → n < 64 := by intro a n h; unfold B64 at h; omega
      have := l h1; have := l h2; have := l h3; have := l h4; have := l g1; have := l g2; have := l g3; have := l g4
      have e1 : n1 = m1 := by omega
      have e2 : n2 = m2 := by omega
      have e3 : n3 = m3 := by omega
      have e4 : n4 = m4 := by omega
      subst e1 e2 e3 e4
      rw [b64_unique h1 g1, b64_unique h2 g2, b64_unique h3 g3, b64_unique h4 g4, ih gt]
  | two a b c x y n1 n2 n3 h1 h2 h3 he =>
    intro t' h'
    cases h' with
    | two a' b' c' _ _ m1 m2 m3 g1 g2 g3 ge =>
      have l : ∀ {a n}, B64 a n → n < 64 := by intro a n h; unfold B64 at h; omega
      have := l h1; have := l h2; have := l h3; have := l g1; have := l g2; have := l g3
      have e1 : n1 = m1 := by omega
      have e2 : n2 = m2 := by omega
      have e3 : n3 = m3 := by omega
      subst e1 e2 e3
      rw [b64_unique h1 g1, b64_unique h2 g2, b64_unique h3 g3]
  | one a b x n1 n2 h1 h2 he =>
    intro t' h'
    cases h' with
    | one a' b' _ m1 m2 g1 g2 ge =>
      have l : ∀ {a n}, B64 a n → n < 64 := by intro a n h; unfold B64 at h; omega
      have := l h1; have := l h2; have := l g1; have := l g2
      have e1 : n1 = m1 := by omega
      have e2 : n2 = m2 := by omega
      subst e1 e2
      rw [b64_unique h1 g1, b64_unique h2 g2]

theorem chars_ascii : ∀ (t : List UInt8), (∀ b ∈ t, 0x20 ≤ b.toNat ∧ b.toNat < 0x80 ∧ b.toNat ≠ 0x22 ∧ b.toNat ≠ 0x5C) →
    Chars true t (t.map UInt8.toNat)
  | [], _ => .nil
  | b :: t, h => by
    obtain ⟨h1, h2, h3, h4⟩ := h b (by simp)
    have := Chars.raw (pairs := true) b.toNat t _ (by unfold Scalar; omega) h1 h3 h4 (chars_ascii t (fun x hx => h x (by simp [hx])))
    rw [utf8_ascii h2, ofNat_toNat b rfl] at this
    exact this

theorem base64_ascii {t b} (h : Base64 t b) : ∀ c ∈ t, 0x20 ≤ c.toNat ∧ c.toNat < 0x80 ∧ c.toNat ≠ 0x22 ∧ c.toNat ≠ 0x5C := by
  have key : ∀ {a n}, B64 a n → 0x20 ≤ a.toNat ∧ a.toNat < 0x80 ∧ a.toNat ≠ 0x22 ∧ a.toNat ≠ 0x5C := by
    intro a n h; unfold B64 at h; omega
  have eq : 0x20 ≤ (61 : UInt8).toNat ∧ (61 : UInt8).toNat < 0x80 ∧ (61 : UInt8).toNat ≠ 0x22 ∧ (61 : UInt8).toNat ≠ 0x5C := by decide
  induction h with
  | nil => intro c hc; cases hc
  | full a b c d x y z n1 n2 n3 n4 t u h1 h2 h3 h4 he _ ih =>
    intro e he'
    simp only [List.mem_cons] at he'
    rcases he' with rfl | rfl | rfl | rfl | he'
    · exact key h1
    · exact key h2
    · exact key h3
    · exact key h4
    · exact ih e he'
  | two a b c x y n1 n2 n3 h1 h2 h3 he =>
    intro e he'
    simp only [List.mem_cons, List.not_mem_nil, or_false] at he'
    rcases he' with rfl | rfl | rfl | rfl
    · exact key h1
    · exact key h2
    · exact key h3
    · exact eq
  | one a b x n1 n2 h1 h2 he =>
    intro e he'
    simp only [List.mem_cons, List.not_mem_nil, or_false] at he'
    rcases he' with rfl | rfl | rfl | rfl
    · exact key h1
    · exact key h2
    · exact eq
    · exact eq

theorem decoded_flatMap : ∀ (cs : List Nat), (∀ c ∈ cs, Scalar c) → Decoded (cs.flatMap utf8) cs
  | [], _ => .nil
  | c :: cs, h => by
    rw [List.flatMap_cons]
    exact .scalar c _ _ (h c (by simp)) (decoded_flatMap cs (fun x hx => h x (by simp [hx])))

theorem chars_plain : ∀ (cs : List Nat), (∀ c ∈ cs, Scalar c ∧ 0x20 ≤ c ∧ c ≠ 0x22 ∧ c ≠ 0x5C) → Chars true (cs.flatMap utf8) cs
  | [], _ => .nil
  | c :: cs, h => by
    obtain ⟨h1, h2, h3, h4⟩ := h c (by simp)
    rw [List.flatMap_cons]
    exact .raw c _ _ h1 h2 h3 h4 (chars_plain cs (fun x hx => h x (by simp [hx])))

theorem encString_json {s cs} (h : Decoded s cs) : ∃ t, encString s = [34] ++ t ++ [34] ∧ Chars true t cs := by
  obtain ⟨t, h1, h2⟩ := strLoop_chars h
  exact ⟨t, by rw [encString, h1]; simp, h2.lift⟩

theorem appendUint_json (n : Nat) : Json (appendUint n) (.num n) := by
  obtain ⟨h1, h2, h3⟩ := appendUint_spec n
  have := Json.nat _ h1 h3
  rw [h2] at this
  exact this

theorem appendInt_json (i : Int) : Json (appendInt i) (.num i) := by
  unfold appendInt
  split
  · rename_i h
    obtain ⟨h1, h2, h3⟩ := appendUint_spec i.natAbs
    have := Json.neg _ h1 h3
    rw [h2] at this
    rwa [show -(i.natAbs : Int) = i by omega] at this
  · rename_i h
    have := appendUint_json i.natAbs
    rwa [show (i.natAbs : Int) = i by omega] at this

/-- What is proved of one value. -/
def Written (v : Val) : Prop := (∃ j, Denotes v j) ∧ ∃ out, encode v = some out ∧ ∀ j, Denotes v j → Json out j

theorem written_elems : ∀ (vs : List Val), vs ≠ [] → (∀ v ∈ vs, Written v) →
    (∃ js, List.Forall₂ Denotes vs js) ∧ ∃ out, encodeElems vs = some out ∧ ∀ js, List.Forall₂ Denotes vs js → Elems out js
  | [], h, _ => absurd rfl h
  | [v], _, h => by
    obtain ⟨⟨j, hj⟩, out, h1, h2⟩ := h v (by simp)
    refine ⟨⟨[j], .cons hj .nil⟩, out, by rw [encodeElems, h1], ?_⟩
    intro js hjs
    cases hjs with
    | cons hv ht => cases ht; exact .one _ _ (h2 _ hv)
  | v :: w :: t, _, h => by
    obtain ⟨⟨j, hj⟩, out, h1, h2⟩ := h v (by simp)
    obtain ⟨⟨js, hjs⟩, out', h1', h2'⟩ := written_elems (w :: t) (by simp) (fun x hx => h x (by simp [List.mem_cons.mp hx]))
    refine ⟨⟨j :: js, .cons hj hjs⟩, out ++ [44] ++ out', by rw [encodeElems, h1, h1']; rfl, ?_⟩
    intro js hjs
    cases hjs with
    | cons hv ht => exact .more _ _ _ _ (h2 _ hv) (h2' _ ht)

/-- Entries as members; the empty list writes nothing. -/
theorem written_entries : ∀ (kvs : List (Val × Val)), (∀ kv ∈ kvs, ∃ s, kv.1 = .str s) → (∀ kv ∈ kvs, Written kv.2) → ∀ first : Bool,
    (∃ ms : List (List Nat × JV), List.Forall₂ DenotesEntry kvs ms) ∧
    ∃ out, encodeEntries first kvs = some ((if first = true ∨ kvs = [] then [] else [44]) ++ out) ∧
      ∀ ms : List (List Nat × JV), List.Forall₂ DenotesEntry kvs ms →
        (kvs = [] ∧ out = [] ∧ ms = []) ∨ Members out ms
  | [], _, _, first => by
    refine ⟨⟨[], .nil⟩, [], by rw [encodeEntries]; simp, ?_⟩
    intro ms h; cases h; exact .inl ⟨rfl, rfl, rfl⟩
  | (k, v) :: t, hk, hv, first => by
    obtain ⟨s, rfl⟩ : ∃ s, k = .str s := hk (k, v) (by simp)
    obtain ⟨⟨j, hj⟩, out, h1, h2⟩ := hv (Val.str s, v) (by simp)
    obtain ⟨⟨ms, hms⟩, out', h1', h2'⟩ := written_entries t (fun x hx => hk x (by simp [hx])) (fun x hx => hv x (by simp [hx])) false
    obtain ⟨cs, hcs⟩ := Decoded.exists s
    obtain ⟨q, hq1, hq2⟩ := encString_json hcs
    refine ⟨⟨(cs, j) :: ms, List.Forall₂.cons (DenotesEntry.mk _ _ _ _ (.str _ _ hcs) hj) hms⟩,
      [34] ++ q ++ [34] ++ [58] ++ out ++ ((if t = [] then [] else [44]) ++ out'), ?_, ?_⟩
    · rw [encodeEntries, h1, h1']
      simp only [encode, hq1]
      cases first <;> simp
    · intro ms' hms'
      right
      cases hms' with
      | @cons _ m _ ms2 hm ht =>
        obtain ⟨_, _, mk, mv, hm1, hm2⟩ := hm
        cases hm1 with
        | str _ cs2 hcs2 =>
          have := hcs.unique hcs2
          subst this
          rcases h2' _ ht with ⟨rfl, rfl, rfl⟩ | hmem
          · simp only [if_true, List.append_nil]
            exact .one _ _ _ _ hq2 (h2 _ hm2)
          · by_cases ht0 : t = []
            · subst ht0; cases ht; cases hmem
            · rw [if_neg ht0]
              have := Members.more _ _ _ _ _ _ hq2 (h2 _ hm2) hmem
              simpa using this

theorem encodeFields_omitted : ∀ (fs : List (List UInt8 × Bool × Val)), encodeFields fs = encodeFields (fs.filter fun f => !f.2.1)
  | [] => rfl
  | (name, om, v) :: t => by
    have ih := encodeFields_omitted t
    cases om
    · simp only [encodeFields, List.filter_cons, Bool.not_false, if_true, ih]
    · simp only [encodeFields, List.filter_cons, Bool.not_true, if_true, ih, Bool.false_eq_true, if_false]

theorem plain_written {v : Val} (h : Plain v) : Written v := by
  induction h with
  | bool b =>
    refine ⟨⟨_, .bool b⟩, ?_⟩
    cases b
    · refine ⟨_, by rw [encode], ?_⟩; intro j hj; cases hj; exact .false
    · refine ⟨_, by rw [encode], ?_⟩; intro j hj; cases hj; exact .true
  | int i => refine ⟨⟨_, .int i⟩, _, by rw [encode], ?_⟩; intro j hj; cases hj; exact appendInt_json i
  | uint n => refine ⟨⟨_, .uint n⟩, _, by rw [encode], ?_⟩; intro j hj; cases hj; exact appendUint_json n
  | str s =>
    obtain ⟨cs, hcs⟩ := Decoded.exists s
    refine ⟨⟨_, .str s cs hcs⟩, _, by rw [encode], ?_⟩
    intro j hj
    cases hj with
    | str _ cs' hcs' =>
      obtain ⟨t, h1, h2⟩ := encString_json hcs'
      rw [h1]
      exact .str _ _ h2
  | bytesNil => refine ⟨⟨_, .bytesNil⟩, _, by rw [encode], ?_⟩; intro j hj; cases hj; exact .null
  | bytes b hb =>
    refine ⟨⟨_, .bytes b _ (quanta_ok b)⟩, _, by rw [encode], ?_⟩
    intro j hj
    cases hj with
    | bytes _ t ht =>
      have := (quanta_ok b).unique ht
      subst this
      have hl : b.length ≠ 0 := by simpa using hb
      rw [encBase64, if_neg hl]
      exact .str _ _ (chars_ascii _ (base64_ascii (quanta_ok b)))
  | nilv => refine ⟨⟨_, .nilv⟩, _, by rw [encode], ?_⟩; intro j hj; cases hj; exact .null
  | slice vs _ ih =>
    by_cases hv : vs = []
    · subst hv
      refine ⟨⟨_, .slice _ _ .nil⟩, [91, 93], by rw [encode, encodeElems]; rfl, ?_⟩
      intro j hj
      cases hj with
      | slice _ js hjs => cases hjs; exact .emptyArr
    · obtain ⟨⟨js, hjs⟩, out, h1, h2⟩ := written_elems vs hv ih
      refine ⟨⟨_, .slice _ _ hjs⟩, [91] ++ out ++ [93], by rw [encode, h1]; rfl, ?_⟩
      intro j hj
      cases hj with
      | slice _ js' hjs' => exact .arr _ _ (h2 _ hjs')
  | map kvs hk _ ih =>
    obtain ⟨⟨ms, hms⟩, out, h1, h2⟩ := written_entries kvs hk ih true
    refine ⟨⟨_, .map _ _ hms⟩, [123] ++ out ++ [125], by rw [encode, h1]; simp, ?_⟩
    intro j hj
    cases hj with
    | map _ ms' hms' =>
      rcases h2 _ hms' with ⟨_, rfl, rfl⟩ | hm
      · exact .emptyObj
      · exact .obj _ _ hm
  | ptr v _ ih =>
    obtain ⟨⟨j, hj⟩, out, h1, h2⟩ := ih
    refine ⟨⟨j, .ptr _ _ hj⟩, out, by rw [encode, h1], ?_⟩
    intro j' hj'
    cases hj' with
    | ptr _ _ h => exact h2 _ h
  | struct fs hlen hn _ ih =>
    have hl : (fs.filter fun f => !f.2.1) = [] ∨ ∃ name v, (fs.filter fun f => !f.2.1) = [(name, false, v)] := by
      cases hf : (fs.filter fun f => !f.2.1) with
      | nil => left; rfl
      | cons f t =>
        rw [hf] at hlen
        have : t = [] := by cases t <;> simp at hlen ⊢
        subst this
        right
        obtain ⟨name, om, v⟩ := f
        have : (name, om, v) ∈ fs.filter fun f => !f.2.1 := by rw [hf]; simp
        have hom := (List.mem_filter.mp this).2
        have : om = false := by simpa using hom
        subst this
        exact ⟨name, v, rfl⟩
    rcases hl with hl | ⟨name, v, hl⟩
    · refine ⟨⟨_, .struct fs [] (by rw [hl]; exact .nil)⟩, [123, 125], by rw [encode, encodeFields_omitted, hl]; rfl, ?_⟩
      intro j hj
      cases hj with
      | struct _ ms hms => rw [hl] at hms; cases hms; exact .emptyObj
    · have hmem : (name, false, v) ∈ fs := (List.mem_filter.mp (by rw [hl]; simp : (name, false, v) ∈ fs.filter fun f => !f.2.1)).1
      obtain ⟨cs, hcs1, hcs2⟩ := hn _ hmem
      obtain ⟨⟨j, hj⟩, out, h1, h2⟩ := ih _ hmem
      have hdec : Decoded name cs := by
        rw [show name = cs.flatMap utf8 from hcs1]
        exact decoded_flatMap cs (fun c hc => (hcs2 c hc).1)
      refine ⟨⟨_, .struct fs [(cs, j)] (by rw [hl]; exact .cons (.mk _ _ _ _ _ hdec hj) .nil)⟩, [123] ++ ([34] ++ name ++ [34] ++ [58] ++ out) ++ [125], ?_, ?_⟩
      · rw [encode, encodeFields_omitted, hl]
        simp [encodeFields, show encode v = some out from h1]
      · intro j' hj'
        cases hj' with
        | struct _ ms hms =>
          rw [hl] at hms
          cases hms with
          | @cons _ m _ _ hm ht =>
            cases ht
            obtain ⟨_, _, _, mk, mv, hm1, hm2⟩ := hm
            have : cs = mk := hdec.unique hm1
            subst this
            refine .obj _ _ (.one _ _ _ _ ?_ (h2 _ hm2))
            rw [show name = cs.flatMap utf8 from hcs1]
            exact chars_plain cs hcs2

end Verif.Jrpc
