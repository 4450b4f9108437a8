import Verif.Grpc.Wire

/-! Proof machinery for the reflective encoder. -/
namespace Verif.Grpc

theorem len64_tag (n t : Nat) (hn : 1 ≤ n) (h61 : n < 2 ^ 60) (ht : t < 8) (x : UInt64)
    (hx : x.toNat = n * 8 + t) : len64 x = n.log2 + 4 := by
  have hne : n ≠ 0 := by omega
  have h1 := Nat.log2_self_le hne
  have h2 := @Nat.lt_log2_self n
  have lo := len64_lower x (n.log2 + 3) (by rw [hx, Nat.pow_add]; omega)
  have hi := len64_bounds x (n.log2 + 4) (by
    rw [hx]
    have : 2 ^ (n.log2 + 4) = 2 ^ (n.log2 + 1) * 8 := by
      rw [show n.log2 + 4 = (n.log2 + 1) + 3 by omega, Nat.pow_add]
    omega)
  omega

theorem appendTag_length (n : Nat) (typ : WireType) (hn : 1 ≤ n) (h : n < 2 ^ 60) :
    (appendTag [] n typ).length = sizeTag n := by
  unfold appendTag sizeTag
  rw [(canon_appendVarint _).size]
  unfold sizeVarint
  rw [len64_tag n _ hn h (Nat.mod_lt typ.toNat (by decide)) _ (encodeTag_toNat n typ (by omega)),
    len64_tag n 0 hn h (by decide) _ (by rw [encodeTag_toNat n 0 (by omega)]; rfl)]

theorem appendVarint_length (b : List UInt8) (v : UInt64) :
    (appendVarint b v).length = b.length + sizeVarint v := by
  rw [appendVarint_append, List.length_append, (canon_appendVarint v).size]

theorem parses_append {a b : List UInt8} {fa fb} (ha : Parses a fa) (hb : Parses b fb) :
    Parses (a ++ b) (fa ++ fb) := by
  induction ha with
  | nil => simpa using hb
  | varint h1 h2 h3 ih => simpa [List.append_assoc] using Parses.varint h1 h2 ih
  | fixed64 h1 h2 h3 ih => simpa [List.append_assoc] using Parses.fixed64 h1 h2 ih
  | bytes h1 h2 h3 ih => simpa [List.append_assoc] using Parses.bytes h1 h2 ih
  | fixed32 h1 h2 h3 ih => simpa [List.append_assoc] using Parses.fixed32 h1 h2 ih

theorem parses_bytes {n : Nat} (h1 : 1 ≤ n) (h2 : n < 2 ^ 29) (p : List UInt8) (h : p.length < 2 ^ 64) :
    Parses (appendVarint (appendTag [] n typeBytes) (UInt64.ofNat p.length) ++ p) [(n, .bytes p)] := by
  have t := isTag_append (typ := typeBytes) h1 (by omega) (by decide)
  have l := isVarint64_append (UInt64.ofNat p.length)
  rw [UInt64.toNat_ofNat', Nat.mod_eq_of_lt h] at l
  have := Parses.bytes t l Parses.nil
  rw [appendVarint_append]
  simpa [List.append_assoc] using this

/-- What the induction establishes for one value. -/
def EncOk (n : Nat) (v : Val) : Prop :=
  ∃ bs fs, encode n v = .ok bs ∧ (bs.length : Int) = (sizeof n v).1 + (sizeof n v).2 ∧
    0 ≤ (sizeof n v).1 ∧ 0 ≤ (sizeof n v).2 ∧ Parses bs fs ∧ Rep n v fs

theorem scalar_varint {n : Nat} (h1 : 1 ≤ n) (h2 : n < 2 ^ 29) (x : UInt64) :
    (appendVarint (appendTag [] n typeVarint) x).length = sizeTag n + sizeVarint x ∧
    Parses (appendVarint (appendTag [] n typeVarint) x) [(n, .varint x.toNat)] := by
  refine ⟨by rw [appendVarint_length, appendTag_length n _ h1 (by omega)], ?_⟩
  rw [appendVarint_append]
  simpa using Parses.varint (isTag_append (typ := typeVarint) h1 (by omega) (by decide))
    (isVarint64_append x) Parses.nil

theorem sizes_nonneg_of {n v} (h : EncOk n v) : 0 ≤ (sizeof n v).1 ∧ 0 ≤ (sizeof n v).2 := by
  obtain ⟨_, _, _, _, h1, h2, _⟩ := h; exact ⟨h1, h2⟩

mutual
theorem sizes_nonneg (n : Nat) : (v : Val) → Encodable v → 0 ≤ (sizeof n v).1 ∧ 0 ≤ (sizeof n v).2
  | .bool _, _ => by simp [sizeof]
  | .int _, _ => by simp [sizeof]
  | .uint _, _ => by simp [sizeof]
  | .f32 _, _ => by simp [sizeof]
  | .f64 _, _ => by simp [sizeof]
  | .str _, _ => by simp [sizeof]; omega
  | .array vs, h => by
    have := sizesF_nonneg 1 vs h.2
    simp [sizeof]; omega
  | .slice vs, h => by
    have := sizesE_nonneg n vs h
    simp [sizeof]; omega
  | .map kvs, h => by
    have := sizesM_nonneg kvs h
    simp [sizeof]; omega
  | .nil, _ => by simp [sizeof]
  | .ptr v, h => by
    have := sizes_nonneg n v h
    simpa [sizeof] using this
  | .struct vs, h => by
    have := sizesF_nonneg 1 vs h.2
    simp [sizeof]; omega
  | .other, h => by simp [Encodable] at h
theorem sizesF_nonneg (i : Nat) : (vs : List Val) → EncodableL vs → 0 ≤ sizeofFields i vs
  | [], _ => by simp [sizeofFields]
  | v :: t, h => by
    have h1 := sizes_nonneg i v h.1
    have h2 := sizesF_nonneg (i+1) t h.2
    simp [sizeofFields]; omega
theorem sizesE_nonneg (n : Nat) : (vs : List Val) → EncodableL vs → 0 ≤ sizeofElems n vs
  | [], _ => by simp [sizeofElems]
  | v :: t, h => by
    have h1 := sizes_nonneg n v h.1
    have h2 := sizesE_nonneg n t h.2
    simp [sizeofElems]; omega
theorem sizesM_nonneg : (kvs : List (Val × Val)) → EncodableE kvs → 0 ≤ sizeofEntries kvs
  | [], _ => by simp [sizeofEntries]
  | (k, v) :: t, h => by
    have h1 := sizes_nonneg 1 k h.1
    have h2 := sizes_nonneg 2 v h.2.1
    have h3 := sizesM_nonneg t h.2.2
    simp [sizeofEntries]; omega
end

/-- The statement proved by induction, kept folded so that pattern matching does not unfold it. -/
def EncGoal (n : Nat) (v : Val) : Prop := Encodable v → SingletonMaps v →
  (sizeof n v).1 + (sizeof n v).2 < 2 ^ 64 → EncOk n v
/-- Consecutive fields. -/
def EncGoalF (i : Nat) (vs : List Val) : Prop := i + vs.length < 2 ^ 29 → EncodableL vs →
    SingletonMapsL vs → sizeofFields i vs < 2 ^ 64 →
    ∃ bs fs, encodeFields i vs = .ok bs ∧ (bs.length : Int) = sizeofFields i vs ∧ Parses bs fs ∧
      RepFields i vs fs
/-- Repeated fields. -/
def EncGoalE (n : Nat) (vs : List Val) : Prop := EncodableL vs →
    SingletonMapsL vs → sizeofElems n vs < 2 ^ 64 →
    ∃ bs fs, encodeElems n vs = .ok bs ∧ (bs.length : Int) = sizeofElems n vs ∧ Parses bs fs ∧
      RepElems n vs fs

mutual
theorem enc_ok (n : Nat) (h1 : 1 ≤ n) (h2 : n < 2 ^ 29) : (v : Val) → EncGoal n v
  | .bool b => by
    intro _ _ _
    have s := scalar_varint h1 h2 (encodeBool b)
    refine ⟨_, [(n, .varint (encodeBool b).toNat)], by rw [encode], ?_, by simp [sizeof], by simp [sizeof], s.2, ?_⟩
    · have e : sizeVarint (encodeBool b) = 1 := by cases b <;> decide
      rw [s.1, e]; simp [sizeof]
    · rw [Rep]; cases b <;> rfl
  | .int x => by
    intro _ _ _
    have s := scalar_varint h1 h2 x
    exact ⟨_, [(n, .varint x.toNat)], by rw [encode], by rw [s.1]; simp [sizeof], by simp [sizeof], by simp [sizeof], s.2, by rw [Rep]⟩
  | .uint x => by
    intro _ _ _
    have s := scalar_varint h1 h2 x
    exact ⟨_, [(n, .varint x.toNat)], by rw [encode], by rw [s.1]; simp [sizeof], by simp [sizeof], by simp [sizeof], s.2, by rw [Rep]⟩
  | .f32 x => by
    intro _ _ _
    have t := isTag_append (typ := typeFixed32) h1 (by omega) (by decide)
    have e : appendFixed32 (appendTag [] n typeFixed32) x = appendTag [] n typeFixed32 ++ appendFixed32 [] x := rfl
    refine ⟨_, [(n, .fixed32 x.toNat)], by rw [encode], ?_, by simp [sizeof], by simp [sizeof], ?_, by rw [Rep]⟩
    · rw [e, List.length_append, appendTag_length n _ h1 (by omega)]; simp [sizeof, appendFixed32]
    · rw [e]
      have := Parses.fixed32 (p := appendFixed32 [] x) t (by simp [appendFixed32]) Parses.nil
      rw [appendFixed32_val] at this
      simpa using this
  | .f64 x => by
    intro _ _ _
    have t := isTag_append (typ := typeFixed64) h1 (by omega) (by decide)
    have e : appendFixed64 (appendTag [] n typeFixed64) x = appendTag [] n typeFixed64 ++ appendFixed64 [] x := rfl
    refine ⟨_, [(n, .fixed64 x.toNat)], by rw [encode], ?_, by simp [sizeof], by simp [sizeof], ?_, by rw [Rep]⟩
    · rw [e, List.length_append, appendTag_length n _ h1 (by omega)]; simp [sizeof, appendFixed64]
    · rw [e]
      have := Parses.fixed64 (p := appendFixed64 [] x) t (by simp [appendFixed64]) Parses.nil
      rw [appendFixed64_val] at this
      simpa using this
  | .str s => by
    intro _ _ hs
    simp only [sizeof] at hs
    refine ⟨_, [(n, .bytes s)], by rw [encode], ?_, by simp [sizeof]; omega, by simp [sizeof],
      parses_bytes h1 h2 s (by omega), by rw [Rep]⟩
    rw [List.length_append, appendVarint_length, appendTag_length n _ h1 (by omega)]; simp [sizeof]
  | .array vs => by
    intro he hm hs
    have hnn := sizesF_nonneg 1 vs he.2
    simp only [sizeof] at hs
    obtain ⟨bs, fs, e1, e2, e3, e4⟩ := encF_ok 1 (Nat.le_refl _) vs (by have := he.1; omega) he.2 hm (by omega)
    have hlen : bs.length = (sizeofFields 1 vs).toNat := by omega
    refine ⟨_, [(n, .bytes bs)], by rw [encode, e1]; rfl, ?_, by simp [sizeof]; omega, by simpa [sizeof] using hnn, ?_, ?_⟩
    · rw [List.length_append, appendVarint_length, appendTag_length n _ h1 (by omega)]
      simp only [sizeof]; omega
    · simp only [sizeof]; rw [← hlen]; exact parses_bytes h1 h2 bs (by omega)
    · rw [Rep]; exact ⟨bs, fs, rfl, e3, e4⟩
  | .struct vs => by
    intro he hm hs
    have hnn := sizesF_nonneg 1 vs he.2
    simp only [sizeof] at hs
    obtain ⟨bs, fs, e1, e2, e3, e4⟩ := encF_ok 1 (Nat.le_refl _) vs (by have := he.1; omega) he.2 hm (by omega)
    have hlen : bs.length = (sizeofFields 1 vs).toNat := by omega
    refine ⟨_, [(n, .bytes bs)], by rw [encode, e1]; rfl, ?_, by simp [sizeof]; omega, by simpa [sizeof] using hnn, ?_, ?_⟩
    · rw [List.length_append, appendVarint_length, appendTag_length n _ h1 (by omega)]
      simp only [sizeof]; omega
    · simp only [sizeof]; rw [← hlen]; exact parses_bytes h1 h2 bs (by omega)
    · rw [Rep]; exact ⟨bs, fs, rfl, e3, e4⟩
  | .slice vs => by
    intro he hm hs
    have hnn := sizesE_nonneg n vs he
    simp only [sizeof] at hs
    obtain ⟨bs, fs, e1, e2, e3, e4⟩ := encE_ok n h1 h2 vs he hm (by omega)
    exact ⟨bs, fs, by rw [encode, e1], by simp [sizeof, e2], by simp [sizeof], by simpa [sizeof] using hnn, e3, by rw [Rep]; exact e4⟩
  | .map [] => by
    intro _ hm _
    simp [SingletonMaps] at hm
  | .map ((k, v) :: kv :: t) => by
    intro _ hm _
    simp [SingletonMaps] at hm
  | .map [(k, v)] => by
    intro he hm hs
    have hnk := sizes_nonneg 1 k he.1
    have hnv := sizes_nonneg 2 v he.2.1
    simp only [SingletonMaps] at hm
    simp only [sizeof, sizeofEntries] at hs
    obtain ⟨kb, kf, k1, k2, _, _, k5, k6⟩ := enc_ok 1 (by omega) (by omega) k he.1 hm.1 (by omega)
    obtain ⟨vb, vf, v1, v2, _, _, v5, v6⟩ := enc_ok 2 (by omega) (by omega) v he.2.1 hm.2 (by omega)
    have hlen : (kb ++ vb).length = (sizeofEntries [(k, v)]).toNat / [(k, v)].length := by
      simp [sizeofEntries]; omega
    have hb := parses_bytes h1 h2 (kb ++ vb) (by simp; omega)
    refine ⟨appendVarint (appendTag [] n typeBytes) (UInt64.ofNat (kb ++ vb).length) ++ (kb ++ vb),
      [(n, .bytes (kb ++ vb))], ?_, ?_, by simp [sizeof]; omega, by simp [sizeof, sizeofEntries]; omega, hb, ?_⟩
    · rw [encode, if_neg (by simp), encodeEntries, k1, v1, encodeEntries, ← hlen]
      simp [bind, Except.bind]
    · rw [List.length_append, appendVarint_length, appendTag_length n _ h1 (by omega), hlen]
      simp [sizeof, sizeofEntries]; omega
    · rw [Rep, RepEntries]
      exact ⟨kb ++ vb, kf, vf, [], rfl, parses_append k5 v5, k6, v6, by rw [RepEntries]⟩
  | .nil => by
    intro _ _ _
    exact ⟨[], [], by rw [encode], by simp [sizeof], by simp [sizeof], by simp [sizeof], Parses.nil, by rw [Rep]⟩
  | .ptr v => by
    intro he hm hs
    simp only [sizeof] at hs
    obtain ⟨bs, fs, e1, e2, e3, e4, e5, e6⟩ := enc_ok n h1 h2 v he hm hs
    exact ⟨bs, fs, by rw [encode, e1], by simpa [sizeof] using e2, by simpa [sizeof] using e3, by simpa [sizeof] using e4, e5, by rw [Rep]; exact e6⟩
  | .other => by
    intro he _ _
    simp [Encodable] at he
theorem encF_ok (i : Nat) (h1 : 1 ≤ i) : (vs : List Val) → EncGoalF i vs
  | [] => by
    intro _ _ _ _
    exact ⟨[], [], by rw [encodeFields], by simp [sizeofFields], Parses.nil, by rw [RepFields]⟩
  | v :: t => by
    intro hl he hm hs
    have hn1 := sizes_nonneg i v he.1
    have hn2 := sizesF_nonneg (i+1) t he.2
    simp only [sizeofFields] at hs
    simp only [List.length_cons] at hl
    obtain ⟨b1, f1, a1, a2, _, _, a3, a4⟩ := enc_ok i h1 (by omega) v he.1 hm.1 (by omega)
    obtain ⟨b2, f2, c1, c2, c3, c4⟩ := encF_ok (i+1) (by omega) t (by omega) he.2 hm.2 (by omega)
    refine ⟨b1 ++ b2, f1 ++ f2, ?_, ?_, parses_append a3 c3, ?_⟩
    · rw [encodeFields, a1, c1]; rfl
    · simp [sizeofFields]; omega
    · rw [RepFields]; exact ⟨f1, f2, rfl, a4, c4⟩
theorem encE_ok (n : Nat) (h1 : 1 ≤ n) (h2 : n < 2 ^ 29) : (vs : List Val) → EncGoalE n vs
  | [] => by
    intro _ _ _
    exact ⟨[], [], by rw [encodeElems], by simp [sizeofElems], Parses.nil, by rw [RepElems]⟩
  | v :: t => by
    intro he hm hs
    have hn1 := sizes_nonneg n v he.1
    have hn2 := sizesE_nonneg n t he.2
    simp only [sizeofElems] at hs
    obtain ⟨b1, f1, a1, a2, _, _, a3, a4⟩ := enc_ok n h1 h2 v he.1 hm.1 (by omega)
    obtain ⟨b2, f2, c1, c2, c3, c4⟩ := encE_ok n h1 h2 t he.2 hm.2 (by omega)
    refine ⟨b1 ++ b2, f1 ++ f2, ?_, ?_, parses_append a3 c3, ?_⟩
    · rw [encodeElems, a1, c1]; rfl
    · simp [sizeofElems]; omega
    · rw [RepElems]; exact ⟨f1, f2, rfl, a4, c4⟩
end

/-- The entries of a map, all of them with the same predicted size: the average is the size of each. -/
theorem encM_ok (n : Nat) (h1 : 1 ≤ n) (h2 : n < 2 ^ 29) (size : Nat) (hsz : size < 2 ^ 64) :
    (kvs : List (Val × Val)) → EncodableE kvs →
    (∀ kv ∈ kvs, SingletonMaps kv.1 ∧ SingletonMaps kv.2 ∧ sizeofEntries [kv] = size) →
    ∃ bs fs, encodeEntries n (UInt64.ofNat size) kvs = .ok bs ∧ Parses bs fs ∧ RepEntries n kvs fs
  | [], _, _ => ⟨[], [], by rw [encodeEntries], Parses.nil, by rw [RepEntries]⟩
  | (k, v) :: t, he, hk => by
    have hnk := sizes_nonneg 1 k he.1
    have hnv := sizes_nonneg 2 v he.2.1
    obtain ⟨hk1, hk2, hk3⟩ := hk (k, v) (by simp)
    simp only [sizeofEntries] at hk3
    obtain ⟨kb, kf, k1, k2, _, _, k5, k6⟩ := enc_ok 1 (by omega) (by omega) k he.1 hk1 (by omega)
    obtain ⟨vb, vf, v1, v2, _, _, v5, v6⟩ := enc_ok 2 (by omega) (by omega) v he.2.1 hk2 (by omega)
    obtain ⟨tb, tf, t1, t2, t3⟩ := encM_ok n h1 h2 size hsz t he.2.2
      (fun kv h => hk kv (List.mem_cons_of_mem _ h))
    have hlen : (kb ++ vb).length = size := by simp; omega
    have hb := parses_bytes h1 h2 (kb ++ vb) (by omega)
    rw [hlen] at hb
    refine ⟨_, (n, .bytes (kb ++ vb)) :: tf, ?_, parses_append hb t2, ?_⟩
    · rw [encodeEntries, k1, v1, t1]
      simp [bind, Except.bind]
    · rw [RepEntries]
      exact ⟨kb ++ vb, kf, vf, tf, rfl, parses_append k5 v5, k6, v6, t3⟩

theorem sizeofEntries_uniform (size : Nat) : (kvs : List (Val × Val)) →
    (∀ kv ∈ kvs, sizeofEntries [kv] = size) → sizeofEntries kvs = kvs.length * size
  | [], _ => by simp [sizeofEntries]
  | (k, v) :: t, h => by
    have a := h (k, v) (by simp)
    have b := sizeofEntries_uniform size t (fun kv hh => h kv (List.mem_cons_of_mem _ hh))
    simp only [sizeofEntries] at a ⊢
    rw [b]
    simp only [List.length_cons, Int.natCast_add, Int.add_mul]
    omega

/-! ### A computable reader, used to show that the wire grammar is unambiguous -/

/-- Reads fields one at a time. -/
def readFields : Nat → List UInt8 → Option (List (Nat × WireVal))
  | 0, [] => some []
  | 0, _ :: _ => none
  | fuel + 1, b =>
    if b = [] then some [] else
    let t := consumeTag b
    if t.2.2 < 0 then none else
    let r := b.drop t.2.2.toNat
    if t.2.1 = typeVarint then
      let q := consumeVarint r
      if q.2 < 0 then none
      else (readFields fuel (r.drop q.2.toNat)).map ((t.1.toNat, .varint q.1.toNat) :: ·)
    else if t.2.1 = typeFixed64 then
      if r.length < 8 then none
      else (readFields fuel (r.drop 8)).map ((t.1.toNat, .fixed64 (le256 (r.take 8))) :: ·)
    else if t.2.1 = typeBytes then
      let q := consumeBytes r
      if q.2 < 0 then none
      else (readFields fuel (r.drop q.2.toNat)).map ((t.1.toNat, .bytes q.1) :: ·)
    else if t.2.1 = typeFixed32 then
      if r.length < 4 then none
      else (readFields fuel (r.drop 4)).map ((t.1.toNat, .fixed32 (le256 (r.take 4))) :: ·)
    else none

theorem isTag_ne_nil {t num typ} (h : IsTag t num typ) : 1 ≤ t.length := (varint_index h.1.1).1

theorem readFields_of_parses {b fs} (h : Parses b fs) : ∀ fuel, b.length ≤ fuel → readFields fuel b = some fs := by
  induction h with
  | nil => intro fuel _; cases fuel <;> simp [readFields]
  | varint h1 h2 h3 ih =>
    rename_i t p rest num v fs
    intro fuel hf
    have hne := isTag_ne_nil h1
    have hp := (varint_index h2.1).1
    cases fuel with
    | zero => simp at hf; simp [hf.1] at hne
    | succ fuel =>
      have hb : t ++ p ++ rest ≠ [] := by intro e; have := congrArg List.length e; simp at this; simp [this.1] at hne
      simp only [readFields, if_neg hb]
      rw [List.append_assoc, consumeTag_complete h1]
      have hv : (UInt64.ofNat v).toNat = v := by rw [UInt64.toNat_ofNat']; exact Nat.mod_eq_of_lt h2.2.2.2
      have := ih fuel (by simp at hf; omega)
      simp [typeVarint, consumeVarint_complete h2, this, hv]
  | fixed64 h1 h2 h3 ih =>
    rename_i t p rest num fs
    intro fuel hf
    have hne := isTag_ne_nil h1
    cases fuel with
    | zero => simp at hf; simp [hf.1] at hne
    | succ fuel =>
      have hb : t ++ p ++ rest ≠ [] := by intro e; have := congrArg List.length e; simp at this; simp [this.1] at hne
      simp only [readFields, if_neg hb]
      rw [List.append_assoc, consumeTag_complete h1]
      have := ih fuel (by simp at hf; omega)
      have e1 : List.drop 8 (p ++ rest) = rest := by rw [← h2]; simp
      have e2 : List.take 8 (p ++ rest) = p := by rw [← h2]; simp
      have e3 : ¬ (p.length + rest.length < 8) := by omega
      simp [typeVarint, typeFixed64, this, e1, e2, e3]
  | fixed32 h1 h2 h3 ih =>
    rename_i t p rest num fs
    intro fuel hf
    have hne := isTag_ne_nil h1
    cases fuel with
    | zero => simp at hf; simp [hf.1] at hne
    | succ fuel =>
      have hb : t ++ p ++ rest ≠ [] := by intro e; have := congrArg List.length e; simp at this; simp [this.1] at hne
      simp only [readFields, if_neg hb]
      rw [List.append_assoc, consumeTag_complete h1]
      have := ih fuel (by simp at hf; omega)
      have e1 : List.drop 4 (p ++ rest) = rest := by rw [← h2]; simp
      have e2 : List.take 4 (p ++ rest) = p := by rw [← h2]; simp
      have e3 : ¬ (p.length + rest.length < 4) := by omega
      simp [typeVarint, typeFixed64, typeBytes, typeFixed32, this, e1, e2, e3]
  | bytes h1 h2 h3 ih =>
    rename_i t l p rest num fs
    intro fuel hf
    have hne := isTag_ne_nil h1
    cases fuel with
    | zero => simp at hf; simp [hf.1] at hne
    | succ fuel =>
      have hb : t ++ (l ++ p) ++ rest ≠ [] := by intro e; have := congrArg List.length e; simp at this; simp [this.1] at hne
      simp only [readFields, if_neg hb]
      rw [List.append_assoc, consumeTag_complete h1]
      have := ih fuel (by simp at hf; omega)
      have e := consumeBytes_complete (rest := rest) h2
      have e1 : List.drop (l.length + p.length) (l ++ p ++ rest) = rest := by
        rw [← List.length_append]; simp
      simp only [List.drop_left', Int.toNat_natCast]
      rw [e]
      dsimp only
      rw [Int.toNat_natCast, e1, this]
      simp [typeVarint, typeFixed64, typeBytes]
      omega

theorem parses_unique {b fs fs'} (h : Parses b fs) (h' : Parses b fs') : fs = fs' := by
  have e := readFields_of_parses h b.length (Nat.le_refl _)
  have e' := readFields_of_parses h' b.length (Nat.le_refl _)
  rw [e] at e'; cases e'; rfl

end Verif.Grpc
