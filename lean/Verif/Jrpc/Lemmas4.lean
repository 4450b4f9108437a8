import Verif.Jrpc.Lemmas3

/-! Lemmas: the decoder reads back what the encoder wrote. -/
namespace Verif.Jrpc

theorem decInt_digits (w : Nat) {ds rest : List UInt8} (hd : ∀ d ∈ ds, 48 ≤ d.toNat ∧ d.toNat ≤ 57) (hr : NumberEnd rest) :
    decInt w (ds ++ rest) = .ok (setInt w (BitVec.ofNat 64 (digitsVal ds)), rest) := by
  unfold decInt
  rw [show (0 : BitVec 64) = BitVec.ofNat 64 0 from rfl, intLoop_digits ds hd, intLoop_end hr]
  rfl

theorem decInt_neg (w : Nat) {ds rest : List UInt8} (hd : ∀ d ∈ ds, 48 ≤ d.toNat ∧ d.toNat ≤ 57) (hr : NumberEnd rest) :
    decInt w (45 :: ds ++ rest) = .ok (setInt w (-BitVec.ofNat 64 (digitsVal ds)), rest) := by
  unfold decInt
  rw [List.cons_append, intLoop, if_pos rfl, show (0 : BitVec 64) = BitVec.ofNat 64 0 from rfl, intLoop_digits ds hd, intLoop_end hr]
  rfl

theorem decUint_digits (w : Nat) {ds rest : List UInt8} (hd : ∀ d ∈ ds, 48 ≤ d.toNat ∧ d.toNat ≤ 57) (hr : NumberEnd rest) :
    decUint w (ds ++ rest) = .ok (setUint w (BitVec.ofNat 64 (digitsVal ds)), rest) := by
  unfold decUint
  rw [show (0 : BitVec 64) = BitVec.ofNat 64 0 from rfl, uintLoop_digits ds hd, uintLoop_end hr]
  rfl

theorem decInt_append {w : Nat} {i : Int} {rest : List UInt8} (h0 : 0 < w) (h1 : w ≤ 64) (h2 : -(2 ^ (w - 1) : Nat) ≤ i)
    (h3 : i < (2 ^ (w - 1) : Nat)) (hr : NumberEnd rest) : decInt w (appendInt i ++ rest) = .ok (i, rest) := by
  obtain ⟨⟨_, hd⟩, hv, _⟩ := appendUint_spec i.natAbs
  have key : (BitVec.ofInt w i).toInt = i := BitVec.toInt_ofInt_eq_self h0 (by simpa using h2) (by simpa using h3)
  unfold appendInt
  split
  · rename_i hneg
    rw [decInt_neg w hd hr, hv, setInt, BitVec.setWidth_neg_of_le h1, BitVec.setWidth_ofNat_of_le h1, ← BitVec.ofInt_natCast, ← BitVec.ofInt_neg,
      show -(i.natAbs : Int) = i by omega, key]
  · rename_i hneg
    rw [decInt_digits w hd hr, hv, setInt, BitVec.setWidth_ofNat_of_le h1, ← BitVec.ofInt_natCast,
      show (i.natAbs : Int) = i by omega, key]

theorem decUint_append {w n : Nat} {rest : List UInt8} (h1 : w ≤ 64) (h2 : n < 2 ^ w) (hr : NumberEnd rest) :
    decUint w (appendUint n ++ rest) = .ok (n, rest) := by
  obtain ⟨⟨_, hd⟩, hv, _⟩ := appendUint_spec n
  rw [decUint_digits w hd hr, hv, setUint, BitVec.setWidth_ofNat_of_le h1, BitVec.toNat_ofNat, Nat.mod_eq_of_lt h2]

theorem decString_enc {s : List UInt8} {cs : List Nat} (h : Decoded s cs) (rest : List UInt8) :
    decString (encString s ++ rest) = .ok (cs.flatMap utf8, rest) := by
  obtain ⟨t, h1, h2⟩ := strLoop_chars h
  rw [encString, h1, List.cons_append, decString, if_pos rfl, List.append_assoc]
  have := decChars_ok h2 [] rest
  simpa using this

theorem skipWs_char {c : UInt8} {t : List UInt8} (h : c ≠ 32 ∧ c ≠ 9 ∧ c ≠ 10 ∧ c ≠ 13) : skipWs (c :: t) = .ok (c :: t) := by
  rw [skipWs, if_neg]; simp [h]

theorem skipWs_app {c : UInt8} {a b : List UInt8} (h : c ≠ 32 ∧ c ≠ 9 ∧ c ≠ 10 ∧ c ≠ 13) : skipWs (c :: a ++ b) = .ok (c :: a ++ b) :=
  skipWs_char h

theorem ok_bind {α β : Type} (x : α) (f : α → Except Err β) : (Except.ok x >>= f) = f x := rfl

/-- A byte a value may begin with. -/
def Start (c : UInt8) : Prop := (c ≠ 32 ∧ c ≠ 9 ∧ c ≠ 10 ∧ c ≠ 13) ∧ c ≠ 93 ∧ c ≠ 110

/-- What is proved of one value. -/
def Trip (ty : Ty) (v : Val) : Prop := ∃ c out, Start c ∧ encode v = some (c :: out) ∧
  ∀ rest, NumberEnd rest → decode ty (c :: out ++ rest) = .ok (v, rest)

theorem end_comma (t : List UInt8) : NumberEnd (44 :: t) := .inr ⟨44, t, rfl, by decide⟩
theorem end_bracket (t : List UInt8) : NumberEnd (93 :: t) := .inr ⟨93, t, rfl, by decide⟩
theorem end_brace (t : List UInt8) : NumberEnd (125 :: t) := .inr ⟨125, t, rfl, by decide⟩

theorem trip_elems {e : Ty} : ∀ (vs : List Val), vs ≠ [] → (∀ v ∈ vs, Trip e v) →
    ∃ c out, Start c ∧ encodeElems vs = some (c :: out) ∧ vs.length ≤ (c :: out).length ∧
      ∀ acc rest n, vs.length ≤ n → elemLoop (decode e) n acc (c :: out ++ 93 :: rest) = .ok (acc ++ vs, rest)
  | [], h, _ => absurd rfl h
  | [v], _, h => by
    obtain ⟨c, out, h0, h1, h2⟩ := h v (by simp)
    refine ⟨c, out, h0, by rw [encodeElems, h1], by simp, ?_⟩
    intro acc rest n hn
    obtain ⟨m, rfl⟩ : ∃ m, n = m + 1 := ⟨n - 1, by simp at hn; omega⟩
    rw [elemLoop, h2 _ (end_bracket rest)]
    simp only [ok_bind]
    rw [skipWs_char (by decide)]
    rfl
  | v :: w :: t, _, h => by
    obtain ⟨c, out, h0, h1, h2⟩ := h v (by simp)
    obtain ⟨c', out', h0', h1', h3', h2'⟩ := trip_elems (w :: t) (by simp) (fun x hx => h x (by simp [List.mem_cons.mp hx]))
    refine ⟨c, out ++ [44] ++ c' :: out', h0, by rw [encodeElems, h1, h1']; simp, by simp at h3' ⊢; omega, ?_⟩
    intro acc rest n hn
    obtain ⟨m, rfl⟩ : ∃ m, n = m + 1 := ⟨n - 1, by simp at hn; omega⟩
    have e : c :: (out ++ [44] ++ c' :: out') ++ 93 :: rest = c :: out ++ 44 :: (c' :: out' ++ 93 :: rest) := by simp
    rw [e, elemLoop, h2 _ (end_comma _)]
    simp only [ok_bind]
    rw [skipWs_char (by decide)]
    show elemLoop (decode _) m (acc ++ [v]) (c' :: out' ++ 93 :: rest) = _
    rw [h2' _ _ _ (by simp at hn ⊢; omega)]
    simp

theorem setKey_new (k : List UInt8) (v : Val) : ∀ (ks : List (List UInt8)) (vs : List Val), ks.length = vs.length → k ∉ ks →
    setKey k v ((ks.map Val.str).zip vs) = ((ks ++ [k]).map Val.str).zip (vs ++ [v])
  | [], [], _, _ => rfl
  | x :: ks, y :: vs, hl, hk => by
    simp only [List.mem_cons, not_or] at hk
    simp only [List.map_cons, List.zip_cons_cons, List.cons_append]
    rw [setKey, if_neg (Ne.symm hk.1), setKey_new k v ks vs (by simpa using hl) hk.2]
  | [], _ :: _, hl, _ => by simp at hl
  | _ :: _, [], hl, _ => by simp at hl

theorem encString_cons (s : List UInt8) : ∃ t, encString s = 34 :: t := ⟨_, rfl⟩

theorem Utf8.trip {s : List UInt8} (h : Utf8 s) (rest : List UInt8) : decString (encString s ++ rest) = .ok (s, rest) := by
  obtain ⟨cs, rfl, hc⟩ := h
  exact decString_enc (decoded_flatMap cs hc) rest

theorem trip_entries {e : Ty} : ∀ (ks : List (List UInt8)) (vs : List Val), ks.length = vs.length → ks ≠ [] → ks.Nodup → (∀ k ∈ ks, Utf8 k) →
    (∀ v ∈ vs, Trip e v) → ∀ first : Bool,
    ∃ out, encodeEntries first ((ks.map Val.str).zip vs) = some ((if first then [] else [44]) ++ 34 :: out) ∧ ks.length ≤ (34 :: out).length ∧
      ∀ (ks0 : List (List UInt8)) (vs0 : List Val) rest n, ks0.length = vs0.length → (∀ k ∈ ks, k ∉ ks0) → ks.length ≤ n →
        entryLoop (decode e) n ((ks0.map Val.str).zip vs0) (34 :: out ++ 125 :: rest) =
          .ok ((((ks0 ++ ks).map Val.str).zip (vs0 ++ vs)), rest)
  | [], _, _, h, _, _, _, _ => absurd rfl h
  | _ :: _, [], hl, _, _, _, _, _ => by simp at hl
  | k :: ks, v :: vs, hl, _, hnd, hk, hv, first => by
    obtain ⟨c, out, h0, h1, h2⟩ := hv v (by simp)
    obtain ⟨hkn, hnd'⟩ := List.nodup_cons.mp hnd
    obtain ⟨q, hq⟩ := encString_cons k
    have hkey := fun rest => (hk k (by simp)).trip rest
    rw [hq] at hkey
    by_cases hks : ks = []
    · subst hks
      have hvs : vs = [] := by cases vs <;> simp at hl ⊢
      subst hvs
      refine ⟨q ++ [58] ++ c :: out, ?_, by simp, ?_⟩
      · simp [encodeEntries, encode, hq, h1]
      · intro ks0 vs0 rest n hl0 hd hn
        obtain ⟨m, rfl⟩ : ∃ m, n = m + 1 := ⟨n - 1, by simp at hn; omega⟩
        have e1 : 34 :: (q ++ [58] ++ c :: out) ++ 125 :: rest = 34 :: q ++ 58 :: (c :: out ++ 125 :: rest) := by simp
        rw [e1, entryLoop]
        rw [skipWs_app (by decide)]
        simp only [ok_bind]
        rw [hkey]
        simp only [ok_bind]
        rw [skipWs_char (by decide)]
        simp only [ok_bind, ne_eq, not_true_eq_false, if_false]
        rw [skipWs_app h0.1]
        simp only [ok_bind]
        rw [h2 _ (end_brace rest)]
        simp only [ok_bind]
        rw [skipWs_char (by decide)]
        show Except.ok (setKey k v ((ks0.map Val.str).zip vs0), rest) = _
        rw [setKey_new k v ks0 vs0 hl0 (hd k (by simp))]
    · obtain ⟨out', h1', h3', h2'⟩ := trip_entries ks vs (by simpa using hl) hks hnd' (fun x hx => hk x (by simp [hx]))
        (fun x hx => hv x (by simp [hx])) false
      refine ⟨q ++ [58] ++ c :: out ++ 44 :: 34 :: out', ?_, by simp at h3' ⊢; omega, ?_⟩
      · simp only [List.map_cons, List.zip_cons_cons, encodeEntries, encode, hq, h1, h1']
        simp
      · intro ks0 vs0 rest n hl0 hd hn
        obtain ⟨m, rfl⟩ : ∃ m, n = m + 1 := ⟨n - 1, by simp at hn; omega⟩
        have e1 : 34 :: (q ++ [58] ++ c :: out ++ 44 :: 34 :: out') ++ 125 :: rest =
          34 :: q ++ 58 :: (c :: out ++ 44 :: (34 :: out' ++ 125 :: rest)) := by simp
        rw [e1, entryLoop]
        rw [skipWs_app (by decide)]
        simp only [ok_bind]
        rw [hkey]
        simp only [ok_bind]
        rw [skipWs_char (by decide)]
        simp only [ok_bind, ne_eq, not_true_eq_false, if_false]
        rw [skipWs_app h0.1]
        simp only [ok_bind]
        rw [h2 _ (end_comma _)]
        simp only [ok_bind]
        rw [skipWs_char (by decide)]
        simp only [ok_bind, if_true]
        rw [if_neg (by decide), skipWs_app (by decide)]
        show entryLoop (decode e) m (setKey k v ((ks0.map Val.str).zip vs0)) (34 :: out' ++ 125 :: rest) = _
        rw [setKey_new k v ks0 vs0 hl0 (hd k (by simp)), h2' _ _ _ _ (by simp [hl0]) ?_ (by simp at hn; omega)]
        · simp
        · intro x hx
          simp only [List.mem_append, List.mem_singleton, not_or]
          exact ⟨hd x (by simp [hx]), fun e => hkn (e ▸ hx)⟩

theorem digit_start {d : UInt8} (h : 48 ≤ d.toNat ∧ d.toNat ≤ 57) : Start d := by
  unfold Start
  refine ⟨⟨?_, ?_, ?_, ?_⟩, ?_, ?_⟩ <;> (rintro rfl; revert h; decide)

theorem fits_trip {ty : Ty} {v : Val} (h : Fits ty v) : Trip ty v := by
  induction h with
  | bool b =>
    cases b
    · exact ⟨102, [97, 108, 115, 101], by unfold Start; decide, rfl, fun _ _ => rfl⟩
    · exact ⟨116, [114, 117, 101], by unfold Start; decide, rfl, fun _ _ => rfl⟩
  | int w i h0 h1 h2 h3 =>
    have : ∃ c t, appendInt i = c :: t ∧ Start c := by
      obtain ⟨⟨hn, hd⟩, _, _⟩ := appendUint_spec i.natAbs
      unfold appendInt
      split
      · exact ⟨45, _, rfl, by unfold Start; decide⟩
      · cases hh : appendUint i.natAbs with
        | nil => exact absurd hh hn
        | cons c t => exact ⟨c, t, rfl, digit_start (hd c (by rw [hh]; simp))⟩
    obtain ⟨c, t, e, hc⟩ := this
    refine ⟨c, t, hc, by rw [encode, e], ?_⟩
    intro rest hr
    rw [decode, List.cons_append, skipWs_char hc.1]
    show (decInt w (c :: t ++ rest)).map _ = _
    rw [← e, decInt_append h0 h1 h2 h3 hr]
    rfl
  | uint w n h1 h2 =>
    obtain ⟨⟨hn, hd⟩, _, _⟩ := appendUint_spec n
    cases e : appendUint n with
    | nil => exact absurd e hn
    | cons c t =>
      have hc : Start c := digit_start (hd c (by rw [e]; simp))
      refine ⟨c, t, hc, by rw [encode, e], ?_⟩
      intro rest hr
      rw [decode, List.cons_append, skipWs_char hc.1]
      show (decUint w (c :: t ++ rest)).map _ = _
      rw [← e, decUint_append h1 h2 hr]
      rfl
  | str s hs =>
    obtain ⟨q, hq⟩ := encString_cons s
    refine ⟨34, q, by unfold Start; decide, by rw [encode, hq], ?_⟩
    intro rest _
    rw [decode, List.cons_append, skipWs_char (by decide)]
    show (decString (34 :: q ++ rest)).map _ = _
    rw [← hq, hs.trip rest]
    rfl
  | slice e vs _ hne _ ih =>
    obtain ⟨c, out, h0, h1, h3, h2⟩ := trip_elems vs hne ih
    refine ⟨91, c :: out ++ [93], by unfold Start; decide, by rw [encode, h1]; rfl, ?_⟩
    intro rest _
    have e1 : 91 :: (c :: out ++ [93]) ++ rest = 91 :: (c :: out ++ 93 :: rest) := by simp
    rw [e1, decode, skipWs_char (by decide)]
    simp only [ok_bind, ne_eq, not_true_eq_false, if_false]
    rw [skipWs_app h0.1]
    show (if (some c = some 93) then _ else Except.map _ (elemLoop (decode e) (c :: out ++ 93 :: rest).length [] (c :: out ++ 93 :: rest))) = _
    rw [if_neg (by simp [h0.2.1]), h2 [] rest _ (by rw [List.length_append]; omega)]
    rfl
  | map e ks vs hne hl hnd hk _ ih =>
    obtain ⟨out, h1, h3, h2⟩ := trip_entries ks vs hl hne hnd hk ih true
    refine ⟨123, 34 :: out ++ [125], by unfold Start; decide, by rw [encode, h1]; rfl, ?_⟩
    intro rest _
    have e1 : 123 :: (34 :: out ++ [125]) ++ rest = 123 :: (34 :: out ++ 125 :: rest) := by simp
    rw [e1, decode, skipWs_char (by decide)]
    simp only [ok_bind, ne_eq, not_true_eq_false, if_false]
    rw [skipWs_app (by decide)]
    show Except.map _ (entryLoop (decode e) (34 :: out ++ 125 :: rest).length ((([] : List (List UInt8)).map Val.str).zip ([] : List Val)) (34 :: out ++ 125 :: rest)) = _
    rw [h2 [] [] rest _ rfl (by simp) (by rw [List.length_append]; omega)]
    rfl
  | ptr e v _ ih =>
    obtain ⟨c, out, h0, h1, h2⟩ := ih
    refine ⟨c, out, h0, by rw [encode, h1], ?_⟩
    intro rest hr
    rw [decode, List.cons_append, skipWs_char h0.1]
    show (nullTest (c :: (out ++ rest)) >>= _) = _
    rw [nullTest.eq_def]
    simp only [if_neg h0.2.2]
    show Except.map _ (decode e (c :: out ++ rest)) = _
    rw [h2 rest hr]
    rfl

/-! ### An automaton that every JSON text drives from "want a value" to "after a value" -/

/-- 0 wants a value, 1 is after a value, 2 inside a string, 3 after a backslash, 4 inside a literal or number just ended is
treated as after a value; 5 rejects. -/
def autoStep (q : Nat) (c : UInt8) : Nat :=
  if q = 2 then (if c = 34 then 1 else if c = 92 then 3 else 2)
  else if q = 3 then 2
  else if q = 5 then 5
  else if c = 34 then (if q = 0 then 2 else 5)
  else if c = 91 ∨ c = 123 ∨ c = 44 ∨ c = 58 then 0
  else 1

/-- The automaton over a text. -/
def auto (q : Nat) (w : List UInt8) : Nat := w.foldl autoStep q

theorem auto_append (q : Nat) (a b : List UInt8) : auto q (a ++ b) = auto (auto q a) b := List.foldl_append

theorem auto_cons (q : Nat) (c : UInt8) (t : List UInt8) : auto q (c :: t) = auto (autoStep q c) t := rfl

theorem autoStep_bs : autoStep 2 92 = 3 := by decide

theorem autoStep_esc (e : UInt8) : autoStep 3 e = 2 := by unfold autoStep; rw [if_neg (by decide), if_pos rfl]

theorem auto_raw : ∀ (w : List UInt8), (∀ b ∈ w, b ≠ 34 ∧ b ≠ 92) → auto 2 w = 2
  | [], _ => rfl
  | b :: w, h => by
    obtain ⟨h1, h2⟩ := h b (by simp)
    have : autoStep 2 b = 2 := by unfold autoStep; rw [if_pos rfl, if_neg h1, if_neg h2]
    show auto (autoStep 2 b) w = 2
    rw [this]
    exact auto_raw w (fun x hx => h x (by simp [hx]))

theorem hexDigit_raw {b n} (h : HexDigit b n) : b ≠ 34 ∧ b ≠ 92 := by
  unfold HexDigit at h
  constructor
  · rintro rfl; rw [show (34 : UInt8).toNat = 34 from rfl] at h; omega
  · rintro rfl; rw [show (92 : UInt8).toNat = 92 from rfl] at h; omega

theorem auto_chars {p t cs} (h : Chars p t cs) : auto 2 t = 2 := by
  induction h with
  | nil => rfl
  | raw c t cs hc _ h2 h3 _ ih => rw [auto_append, auto_raw _ (utf8_no_special hc h2 h3), ih]
  | short e c t cs _ _ ih => rw [auto_cons, auto_cons, autoStep_bs, autoStep_esc, ih]
  | hex a b c d n1 n2 n3 n4 t cs h1 h2 h3 h4 _ _ ih =>
    rw [auto_cons, auto_cons, autoStep_bs, autoStep_esc, show a :: b :: c :: d :: t = [a, b, c, d] ++ t from rfl, auto_append, auto_raw, ih]
    intro x hx
    simp only [List.mem_cons, List.not_mem_nil, or_false] at hx
    rcases hx with rfl | rfl | rfl | rfl
    · exact hexDigit_raw h1
    · exact hexDigit_raw h2
    · exact hexDigit_raw h3
    · exact hexDigit_raw h4
  | pair a b c d a' b' c' d' n1 n2 n3 n4 m1 m2 m3 m4 hi lo t cs _ h1 h2 h3 h4 g1 g2 g3 g4 _ _ _ _ _ ih =>
    rw [auto_cons, auto_cons, autoStep_bs, autoStep_esc, show a :: b :: c :: d :: 92 :: 117 :: a' :: b' :: c' :: d' :: t = [a, b, c, d] ++ (92 :: 117 :: ([a', b', c', d'] ++ t)) from rfl, auto_append, auto_raw]
    · rw [auto_cons, auto_cons, autoStep_bs, autoStep_esc, auto_append, auto_raw, ih]
      intro x hx
      simp only [List.mem_cons, List.not_mem_nil, or_false] at hx
      rcases hx with rfl | rfl | rfl | rfl
      · exact hexDigit_raw g1
      · exact hexDigit_raw g2
      · exact hexDigit_raw g3
      · exact hexDigit_raw g4
    · intro x hx
      simp only [List.mem_cons, List.not_mem_nil, or_false] at hx
      rcases hx with rfl | rfl | rfl | rfl
      · exact hexDigit_raw h1
      · exact hexDigit_raw h2
      · exact hexDigit_raw h3
      · exact hexDigit_raw h4

theorem auto_digits : ∀ (ds : List UInt8), (∀ d ∈ ds, 48 ≤ d.toNat ∧ d.toNat ≤ 57) → auto 1 ds = 1
  | [], _ => rfl
  | d :: ds, h => by
    have hd := h d (by simp)
    have : autoStep 1 d = 1 := by
      have : d ≠ 34 ∧ ¬ (d = 91 ∨ d = 123 ∨ d = 44 ∨ d = 58) := by
        refine ⟨by rintro rfl; revert hd; decide, ?_⟩
        rintro (rfl | rfl | rfl | rfl) <;> revert hd <;> decide
      unfold autoStep
      rw [if_neg (by decide), if_neg (by decide), if_neg (by decide), if_neg this.1, if_neg this.2]
    show auto (autoStep 1 d) ds = 1
    rw [this]
    exact auto_digits ds (fun x hx => h x (by simp [hx]))

theorem auto_digits0 (ds : List UInt8) (hn : ds ≠ []) (h : ∀ d ∈ ds, 48 ≤ d.toNat ∧ d.toNat ≤ 57) : auto 0 ds = 1 := by
  cases ds with
  | nil => exact absurd rfl hn
  | cons d ds =>
    have hd := h d (by simp)
    have : autoStep 0 d = 1 := by
      have : d ≠ 34 ∧ ¬ (d = 91 ∨ d = 123 ∨ d = 44 ∨ d = 58) := by
        refine ⟨by rintro rfl; revert hd; decide, ?_⟩
        rintro (rfl | rfl | rfl | rfl) <;> revert hd <;> decide
      unfold autoStep
      rw [if_neg (by decide), if_neg (by decide), if_neg (by decide), if_neg this.1, if_neg this.2]
    show auto (autoStep 0 d) ds = 1
    rw [this]
    exact auto_digits ds (fun x hx => h x (by simp [hx]))

theorem auto_json {w : List UInt8} {v : JV} (h : Json w v) : auto 0 w = 1 := by
  refine Json.rec (motive_1 := fun w _ _ => auto 0 w = 1) (motive_2 := fun w _ _ => auto 0 w = 1) (motive_3 := fun w _ _ => auto 0 w = 1)
    ?_ ?_ ?_ ?_ ?_ ?_ ?_ ?_ ?_ ?_ ?_ ?_ ?_ ?_ h
  · rfl
  · rfl
  · rfl
  · intro ds hd _; exact auto_digits0 ds hd.1 hd.2
  · intro ds hd _; show auto 1 ds = 1; exact auto_digits ds hd.2
  · intro t cs hc
    rw [List.append_assoc, auto_append, auto_append]
    show auto (auto 2 t) [34] = 1
    rw [auto_chars hc]; rfl
  · rfl
  · intro t vs _ ih
    rw [List.append_assoc, auto_append, auto_append]
    show auto (auto 0 t) [93] = 1
    rw [ih]; rfl
  · rfl
  · intro t vs _ ih
    rw [List.append_assoc, auto_append, auto_append]
    show auto (auto 0 t) [125] = 1
    rw [ih]; rfl
  · intro t v _ ih; exact ih
  · intro t u v vs _ _ ih1 ih2
    rw [auto_append, auto_append, ih1]
    exact ih2
  · intro k t cs v hk _ ih
    simp only [auto_append]
    show auto (auto (auto (auto 2 k) [34]) [58]) t = 1
    rw [auto_chars hk]
    exact ih
  · intro k t u cs v kvs hk _ _ ih1 ih2
    simp only [auto_append]
    show auto (auto (auto (auto (auto (auto 2 k) [34]) [58]) t) [44]) u = 1
    rw [auto_chars hk]
    show auto (auto (auto 0 t) [44]) u = 1
    rw [ih1]
    exact ih2

end Verif.Jrpc
