import Verif.Jrpc.ObjModel
import Verif.Jrpc.Props
import Verif.Jrpc.Lemmas4
/-!
# C203: JSON-RPC objects are read into structs
-/
namespace Verif.Jrpc.Obj
namespace Spec

/-- White space of JSON. -/
def White (w : List UInt8) : Prop := ∀ c ∈ w, c.toNat ∈ [0x20, 0x09, 0x0A, 0x0D]

/-- A member of an object as written: white space, a quoted key, white space, a colon, white space, a value, white space. What it does to a
field is `upd`: the new value of the field from its old one. -/
structure Member where
  w1 : List UInt8
  keyText : List UInt8
  w2 : List UInt8
  w3 : List UInt8
  value : List UInt8
  w4 : List UInt8
  key : List UInt8
  upd : Val → Val

/-- Its text. -/
def Member.text (m : Member) : List UInt8 := m.w1 ++ [34] ++ m.keyText ++ [34] ++ m.w2 ++ [58] ++ m.w3 ++ m.value ++ m.w4

/-- It is written as JSON, and its key's characters are `key`. -/
def Member.Ok (m : Member) : Prop := White m.w1 ∧ White m.w2 ∧ White m.w3 ∧ White m.w4 ∧ ∃ cs, Chars false m.keyText cs ∧ m.key = cs.flatMap utf8

/-- An object with these members. -/
def object (m : Member) (ms : List Member) : List UInt8 := [123] ++ m.text ++ ms.flatMap (fun m => [44] ++ m.text) ++ [125]

/-- A value text does `upd` to variables with property `P`, wherever JSON lets it end. The text does not begin with white space. -/
def Reads (dec : Decoder) (P : Val → Prop) (text : List UInt8) (upd : Val → Val) : Prop :=
  (∃ c t, text = c :: t ∧ c.toNat ∉ [0x20, 0x09, 0x0A, 0x0D]) ∧
  ∀ old rest, P old → NumberEnd rest → dec old (text ++ rest) = .ok (upd old, rest) ∧ P (upd old)

/-- The JSON name of a field: its Go name without a tag, otherwise what the tag says before a comma; a field tagged `-` has none. -/
def Named (f : Field) (name : List UInt8) : Prop :=
  (f.tag = [] ∧ name = f.goName) ∨
  (f.tag ≠ [] ∧ name ≠ [45] ∧ 44 ∉ name ∧ (f.tag = name ∨ ∃ opts, f.tag = name ++ 44 :: opts))

/-- What the members make of a field: those with its name, one after the other. -/
def result (name : List UInt8) (ms : List Member) (v : Val) : Val := (ms.filter (·.key = name)).foldl (fun v m => m.upd v) v

/-- Each member is written as JSON, and there is an exported field of its name that can read its value. -/
def Fitting (fields : List Field) (P : Nat → Val → Prop) (m : Member) : Prop :=
  m.Ok ∧ ∃ (i : Nat) (f : Field), fields[i]? = some f ∧ Named f m.key ∧ f.exported = true ∧ Reads f.dec (P i) m.value m.upd

/-- Different fields have different names. -/
def Distinct (fields : List Field) : Prop := ∀ (i j : Nat) (f g : Field) (name : List UInt8), fields[i]? = some f → fields[j]? = some g → Named f name → Named g name → i = j

/-- What a user relies on: the members of an object are read into the fields they name, the others are left, and exactly the object is
read. -/
def ReadInto (fields : List Field) (old : List Val) (ms : List Member) (rest : List UInt8) (r : Except Err (List Val × List UInt8)) : Prop :=
  ∃ out, r = .ok (out, rest) ∧ out.length = old.length ∧
    ∀ (i : Nat) (f : Field) (v : Val), fields[i]? = some f → old[i]? = some v →
      (∀ name, Named f name → out[i]? = some (result name ms v)) ∧ ((∀ name, ¬ Named f name) → out[i]? = some v)

end Spec
open Spec

theorem skipWs_white : ∀ (w : List UInt8) (t : List UInt8), White w → skipWs (w ++ t) = skipWs t
  | [], _, _ => rfl
  | c :: w, t, h => by
    have hc := h c (by simp)
    have : c = 32 ∨ c = 9 ∨ c = 10 ∨ c = 13 := by
      simp only [List.mem_cons, List.not_mem_nil, or_false] at hc
      rcases hc with h | h | h | h
      · exact .inl (UInt8.toNat_inj.1 h)
      · exact .inr (.inl (UInt8.toNat_inj.1 h))
      · exact .inr (.inr (.inl (UInt8.toNat_inj.1 h)))
      · exact .inr (.inr (.inr (UInt8.toNat_inj.1 h)))
    rw [List.cons_append, skipWs, if_pos this]
    exact skipWs_white w t (fun x hx => h x (by simp [hx]))

theorem not_white {c : UInt8} (h : c.toNat ∉ [0x20, 0x09, 0x0A, 0x0D]) : c ≠ 32 ∧ c ≠ 9 ∧ c ≠ 10 ∧ c ≠ 13 := by
  refine ⟨?_, ?_, ?_, ?_⟩ <;> rintro rfl <;> exact h (by decide)

theorem take_before : ∀ (name opts : List UInt8), 44 ∉ name → beforeComma (name ++ 44 :: opts) = name
  | [], _, _ => rfl
  | c :: name, opts, h => by
    unfold beforeComma
    have hc : c ≠ 44 := by rintro rfl; exact h (by simp)
    rw [List.cons_append, List.takeWhile_cons, if_pos (by simpa using hc)]
    have := take_before name opts (fun hm => h (by simp [hm]))
    unfold beforeComma at this
    rw [this]

theorem take_all : ∀ (name : List UInt8), 44 ∉ name → beforeComma name = name
  | [], _ => rfl
  | c :: name, h => by
    unfold beforeComma
    have hc : c ≠ 44 := by rintro rfl; exact h (by simp)
    rw [List.takeWhile_cons, if_pos (by simpa using hc)]
    have := take_all name (fun hm => h (by simp [hm]))
    unfold beforeComma at this
    rw [this]

theorem before_split : ∀ (tag : List UInt8), 44 ∉ beforeComma tag ∧ (tag = beforeComma tag ∨ ∃ opts, tag = beforeComma tag ++ 44 :: opts)
  | [] => ⟨by simp [beforeComma], .inl rfl⟩
  | c :: t => by
    by_cases hc : c = 44
    · subst hc
      exact ⟨by simp [beforeComma], .inr ⟨t, by simp [beforeComma]⟩⟩
    · have e : beforeComma (c :: t) = c :: beforeComma t := by
        unfold beforeComma; rw [List.takeWhile_cons, if_pos (by simpa using hc)]
      obtain ⟨h1, h2⟩ := before_split t
      rw [e]
      refine ⟨by simp only [List.mem_cons, not_or]; exact ⟨fun h => hc h.symm, h1⟩, ?_⟩
      rcases h2 with h2 | ⟨o, h2⟩
      · left; rw [← h2]
      · right; exact ⟨o, by rw [List.cons_append, ← h2]⟩

/-- The names are those of the model. -/
theorem named_iff (f : Field) (name : List UInt8) : Named f name ↔ nameOf f = some name := by
  unfold nameOf Named
  by_cases ht : f.tag = []
  · rw [if_pos ht]
    constructor
    · rintro (⟨_, rfl⟩ | ⟨h, _⟩)
      · rfl
      · exact absurd ht h
    · intro h; exact .inl ⟨ht, (Option.some.inj h).symm⟩
  · rw [if_neg ht]
    constructor
    · rintro (⟨h, _⟩ | ⟨_, h1, h2, h3⟩)
      · exact absurd h ht
      · have hb : beforeComma f.tag = name := by
          rcases h3 with h3 | ⟨o, h3⟩
          · rw [h3]; exact take_all _ h2
          · rw [h3]; exact take_before _ _ h2
        rw [hb, if_neg h1]
    · intro h
      split at h
      · cases h
      · next hn =>
        obtain ⟨rfl⟩ := h
        exact .inr ⟨ht, hn, (before_split f.tag).1, (before_split f.tag).2⟩

theorem find_none (k : List UInt8) : ∀ (fs : List Field) (i : Nat), (∀ f ∈ fs, nameOf f ≠ some k) → find k i fs = none
  | [], _, _ => rfl
  | f :: fs, i, h => by
    rw [find, find_none k fs (i + 1) (fun g hg => h g (by simp [hg]))]
    exact if_neg (h f (by simp))

theorem find_some (k : List UInt8) : ∀ (fs : List Field) (i j : Nat) (f : Field), fs[j]? = some f → nameOf f = some k →
    (∀ j' g, fs[j']? = some g → nameOf g = some k → j' = j) → find k i fs = some (i + j)
  | [], _, _, _, h, _, _ => by simp at h
  | g :: fs, i, 0, f, h, hk, hu => by
    simp only [List.getElem?_cons_zero, Option.some.injEq] at h
    subst h
    rw [find, find_none k fs (i + 1)]
    · exact if_pos hk
    · intro f' hf' hn
      obtain ⟨j', hj'⟩ := List.getElem?_of_mem hf'
      have := hu (j' + 1) f' (by simpa using hj') hn
      omega
  | g :: fs, i, j + 1, f, h, hk, hu => by
    rw [find, find_some k fs (i + 1) j f (by simpa using h) hk]
    · show some _ = some _
      congr 1; omega
    · intro j' g' h1 h2
      have := hu (j' + 1) g' (by simpa using h1) h2
      omega

/-- What is behind a value ends it. -/
theorem white_end (w t : List UInt8) (hw : White w) (ht : NumberEnd t) : NumberEnd (w ++ t) := by
  cases w with
  | nil => exact ht
  | cons c w =>
    have := hw c (by simp)
    exact .inr ⟨c, w ++ t, rfl, by simp only [List.mem_cons, List.not_mem_nil, or_false] at this ⊢; omega⟩

theorem comma_end (t : List UInt8) : NumberEnd (44 :: t) := end_comma t
theorem brace_end (t : List UInt8) : NumberEnd (125 :: t) := end_brace t

/-- One turn of the loop. -/
theorem loop_member (fields : List Field) (p : Err) (n : Nat) (acc : List Val) (m : Member) (c : UInt8) (t : List UInt8) (hc : c = 44 ∨ c = 125)
    (P : Nat → Val → Prop) (hm : m.Ok) (i : Nat) (f : Field) (hi : fields[i]? = some f) (hn : Named f m.key) (hx : f.exported = true)
    (hr : Reads f.dec (P i) m.value m.upd) (hd : Distinct fields) (v : Val) (hv : acc[i]? = some v) (hp : P i v) :
    memberLoop fields p (n + 1) acc (m.text ++ c :: t) =
      if c = 125 then .ok (acc.set i (m.upd v), t) else memberLoop fields p n (acc.set i (m.upd v)) t := by
  obtain ⟨w1, w2, w3, w4, cs, hcs, hk⟩ := hm
  obtain ⟨⟨x, xs, hx1, hx2⟩, hr⟩ := hr
  have hnc : ∀ c' : UInt8, c' = 44 ∨ c' = 125 → c' ≠ 32 ∧ c' ≠ 9 ∧ c' ≠ 10 ∧ c' ≠ 13 := by rintro _ (rfl | rfl) <;> decide
  have hend : NumberEnd (m.w4 ++ c :: t) := white_end _ _ w4 (by
    rcases hc with rfl | rfl
    · exact comma_end t
    · exact brace_end t)
  have hval := hr v (m.w4 ++ c :: t) hp hend
  have hfind : find m.key 0 fields = some i := by
    have := find_some m.key fields 0 i f hi ((named_iff _ _).1 hn) (fun j' g hj hg => hd j' i g f m.key hj hi ((named_iff _ _).2 hg) hn)
    simpa using this
  have e : m.text ++ c :: t = m.w1 ++ (34 :: (m.keyText ++ 34 :: (m.w2 ++ (58 :: (m.w3 ++ (m.value ++ (m.w4 ++ c :: t))))))) := by
    simp [Member.text]
  rw [e]
  conv => lhs; unfold memberLoop
  rw [skipWs_white _ _ w1, skipWs_char (by decide), ok_bind]
  have hkey : decString (34 :: (m.keyText ++ 34 :: (m.w2 ++ (58 :: (m.w3 ++ (m.value ++ (m.w4 ++ c :: t))))))) =
      .ok (m.key, m.w2 ++ (58 :: (m.w3 ++ (m.value ++ (m.w4 ++ c :: t))))) := by
    rw [decString, if_pos rfl, decChars_ok hcs, hk]; rfl
  rw [hkey, ok_bind]
  dsimp only
  rw [skipWs_white _ _ w2, skipWs_char (by decide), ok_bind]
  dsimp only
  rw [if_neg (by decide), skipWs_white _ _ w3]
  have hs : skipWs (m.value ++ (m.w4 ++ c :: t)) = .ok (m.value ++ (m.w4 ++ c :: t)) := by
    rw [hx1, List.cons_append]; exact skipWs_char (not_white hx2)
  rw [hs, ok_bind, hfind]
  dsimp only
  have hinto : intoField fields p i acc (m.value ++ (m.w4 ++ c :: t)) = .ok (acc.set i (m.upd v), m.w4 ++ c :: t) := by
    unfold intoField
    rw [hi, hv]
    dsimp only
    rw [if_pos hx, hval.1]
    rfl
  rw [hinto, ok_bind]
  dsimp only
  rw [skipWs_white _ _ w4, skipWs_char (hnc c hc), ok_bind]
  dsimp only
  rcases hc with rfl | rfl
  · rw [if_neg (show ¬ (44 : UInt8) = 125 by decide), if_pos rfl, if_neg (show ¬ (44 : UInt8) = 125 by decide)]
  · rfl

/-- Reading the members from the beginning of one. -/
theorem loop_members (fields : List Field) (p : Err) (P : Nat → Val → Prop) (hd : Distinct fields) (rest : List UInt8) :
    ∀ (ms : List Member) (m : Member) (n : Nat) (acc : List Val), ms.length < n → acc.length = fields.length → (∀ m' ∈ m :: ms, Fitting fields P m') →
      (∀ i v, acc[i]? = some v → P i v) →
      ReadInto fields acc (m :: ms) rest (memberLoop fields p n acc (m.text ++ (ms.flatMap (fun m => [44] ++ m.text) ++ 125 :: rest))) := by
  intro ms
  induction ms with
  | nil =>
    intro m n acc hn hl hf hp
    obtain ⟨n, rfl⟩ : ∃ k, n = k + 1 := ⟨n - 1, by simp at hn; omega⟩
    obtain ⟨ho, i, f, hi, hnm, hx, hr⟩ := hf m (by simp)
    have hil : i < acc.length := by rw [hl]; exact (List.getElem?_eq_some_iff.1 hi).1
    obtain ⟨v, hv⟩ : ∃ v, acc[i]? = some v := ⟨_, List.getElem?_eq_getElem hil⟩
    rw [List.flatMap_nil, List.nil_append, loop_member fields p n acc m 125 rest (.inr rfl) P ho i f hi hnm hx hr hd v hv (hp i v hv), if_pos rfl]
    refine ⟨_, rfl, by simp, ?_⟩
    intro j g u hj hu
    rw [List.getElem?_set]
    by_cases hij : i = j
    · subst hij
      rw [hi] at hj; cases hj
      rw [hv] at hu; cases hu
      rw [if_pos rfl, if_pos hil]
      refine ⟨fun name hname => ?_, fun hno => absurd hnm (hno _)⟩
      have : m.key = name := by
        have a := (named_iff _ _).1 hnm; have b := (named_iff _ _).1 hname
        rw [a] at b; exact Option.some.inj b
      simp [result, this]
    · rw [if_neg hij]
      refine ⟨fun name hname => ?_, fun _ => hu⟩
      have : m.key ≠ name := by rintro rfl; exact hij (hd i j f g _ hi hj hnm hname)
      simp [result, this, hu]
  | cons m2 ms ih =>
    intro m n acc hn hl hf hp
    obtain ⟨n, rfl⟩ : ∃ k, n = k + 1 := ⟨n - 1, by simp at hn; omega⟩
    obtain ⟨ho, i, f, hi, hnm, hx, hr⟩ := hf m (by simp)
    have hil : i < acc.length := by rw [hl]; exact (List.getElem?_eq_some_iff.1 hi).1
    obtain ⟨v, hv⟩ : ∃ v, acc[i]? = some v := ⟨_, List.getElem?_eq_getElem hil⟩
    have e : m.text ++ ((m2 :: ms).flatMap (fun m => [44] ++ m.text) ++ 125 :: rest) =
        m.text ++ 44 :: (m2.text ++ (ms.flatMap (fun m => [44] ++ m.text) ++ 125 :: rest)) := by simp
    rw [e, loop_member fields p n acc m 44 _ (.inl rfl) P ho i f hi hnm hx hr hd v hv (hp i v hv), if_neg (by decide)]
    have hp' : ∀ j u, (acc.set i (m.upd v))[j]? = some u → P j u := by
      intro j u hu
      rw [List.getElem?_set] at hu
      split at hu
      · next hij =>
        subst hij
        cases hu
        exact (hr.2 v [] (hp i v hv) (.inl rfl)).2
      · exact hp j u hu
    obtain ⟨out, h1, h2, h3⟩ := ih m2 n (acc.set i (m.upd v)) (by simp at hn; omega) (by simpa using hl) (fun m' h' => hf m' (List.mem_cons_of_mem _ h')) hp'
    refine ⟨out, h1, by simpa using h2, ?_⟩
    intro j g u hj hu
    have hset := List.getElem?_set (l := acc) (i := i) (j := j) (a := m.upd v)
    by_cases hij : i = j
    · subst hij
      rw [hi] at hj; cases hj
      rw [hv] at hu; cases hu
      rw [if_pos rfl, if_pos hil] at hset
      obtain ⟨a, _⟩ := h3 i f (m.upd v) hi hset
      refine ⟨fun name hname => ?_, fun hno => absurd hnm (hno _)⟩
      have hk : m.key = name := by
        have a := (named_iff _ _).1 hnm; have b := (named_iff _ _).1 hname
        rw [a] at b; exact Option.some.inj b
      rw [a name hname]
      simp [result, hk, List.filter_cons]
    · rw [if_neg hij, hu] at hset
      obtain ⟨a, b⟩ := h3 j g u hj hset
      refine ⟨fun name hname => ?_, b⟩
      have hk : m.key ≠ name := by rintro rfl; exact hij (hd i j f g _ hi hj hnm hname)
      rw [a name hname]
      simp [result, hk, List.filter_cons]

theorem members_length (ms : List Member) : ms.length ≤ (ms.flatMap (fun m => [44] ++ m.text)).length := by
  induction ms with
  | nil => simp
  | cons m ms ih => simp only [List.flatMap_cons, List.length_cons, List.length_append] at ih ⊢; omega

/-- **C203** (partial): an object with at least one member, each naming an exported field, is read into a struct: in any order, with any
white space, with repeated members. -/
theorem struct_read_partial (fields : List Field) (p : Err) (P : Nat → Val → Prop) (old : List Val) (m : Member) (ms : List Member) (rest : List UInt8)
    (hd : Distinct fields) (hl : old.length = fields.length) (hf : ∀ m' ∈ m :: ms, Fitting fields P m') (hp : ∀ i v, old[i]? = some v → P i v) :
    ReadInto fields old (m :: ms) rest (decStruct fields p old (object m ms ++ rest)) := by
  have e : object m ms ++ rest = 123 :: (m.text ++ (ms.flatMap (fun m => [44] ++ m.text) ++ 125 :: rest)) := by simp [object]
  rw [e]
  obtain ⟨w1, hm⟩ := (hf m (by simp)).1
  have e2 : m.text ++ (ms.flatMap (fun m => [44] ++ m.text) ++ 125 :: rest) =
      m.w1 ++ ({ m with w1 := [] }.text ++ (ms.flatMap (fun m => [44] ++ m.text) ++ 125 :: rest)) := by simp [Member.text]
  have e3 : ∃ t, { m with w1 := [] }.text ++ (ms.flatMap (fun m => [44] ++ m.text) ++ 125 :: rest) = 34 :: t := ⟨_, by simp [Member.text]; rfl⟩
  have hm' : ∀ m' ∈ { m with w1 := [] } :: ms, Fitting fields P m' := by
    intro m' h'
    rcases List.mem_cons.1 h' with rfl | h'
    · obtain ⟨⟨_, a⟩, b⟩ := hf m (by simp)
      exact ⟨⟨by intro c hc; simp at hc, a⟩, b⟩
    · exact hf m' (by simp [h'])
  unfold decStruct
  rw [skipWs_char (by decide), ok_bind]
  dsimp only
  rw [if_neg (by decide), e2, skipWs_white _ _ w1]
  obtain ⟨t, ht⟩ := e3
  rw [ht, skipWs_char (by decide), ok_bind, if_neg (by simp), ← ht]
  have hlen : ms.length < (({ m with w1 := [] } : Member).text ++ (ms.flatMap (fun m : Member => [44] ++ m.text) ++ 125 :: rest)).length := by
    have := members_length ms
    simp only [List.length_append, List.length_cons]
    omega
  obtain ⟨out, h1, h2, h3⟩ := loop_members fields p P hd rest ms { m with w1 := [] } _ old hlen hl hm' hp
  refine ⟨out, h1, h2, fun i f v hi hv => ?_⟩
  obtain ⟨a, b⟩ := h3 i f v hi hv
  refine ⟨fun name hname => ?_, b⟩
  rw [a name hname]
  simp only [result, List.filter_cons]
  split <;> rfl

/-- A field of type `ty`. -/
def plain (goName tag : List UInt8) (ty : Ty) : Field := ⟨goName, tag, true, fun _ s => decode ty s⟩

/-- What the codec writes is what a field of its type reads. -/
theorem fits_reads (ty : Ty) (v : Val) (h : Fits ty v) : ∃ text, encode v = some text ∧ Reads (plain [] [] ty).dec (fun _ => True) text (fun _ => v) := by
  obtain ⟨c, out, hc, e, h⟩ := fits_trip h
  refine ⟨_, e, ⟨c, out, rfl, ?_⟩, fun old rest _ hr => ⟨h rest hr, trivial⟩⟩
  obtain ⟨⟨h1, h2, h3, h4⟩, _⟩ := hc
  intro hm
  simp only [List.mem_cons, List.not_mem_nil, or_false] at hm
  rcases hm with hm | hm | hm | hm
  · exact h1 (UInt8.toNat_inj.1 hm)
  · exact h2 (UInt8.toNat_inj.1 hm)
  · exact h3 (UInt8.toNat_inj.1 hm)
  · exact h4 (UInt8.toNat_inj.1 hm)

/-- **C203** (partial): a struct that was read can itself be a field: it nests. -/
theorem struct_nested_partial (fields : List Field) (p : Err) (P : Nat → Val → Prop) (m : Member) (ms : List Member) (names : List (List UInt8 × Bool))
    (hd : Distinct fields) (hf : ∀ m' ∈ m :: ms, Fitting fields P m') (hn : names.length = fields.length)
    (old : List Val) (hl : old.length = fields.length) (hp : ∀ i v, old[i]? = some v → P i v) (rest : List UInt8) :
    ∃ new, decStructVal fields p (.struct (withValues (names.map fun n => (n.1, n.2, .nilv)) old)) (object m ms ++ rest) =
        .ok (.struct (withValues (names.map fun n => (n.1, n.2, .nilv)) new), rest) ∧ new.length = old.length ∧
      ∀ (i : Nat) (f : Field) (v : Val), fields[i]? = some f → old[i]? = some v →
        (∀ name, Named f name → new[i]? = some (result name (m :: ms) v)) ∧ ((∀ name, ¬ Named f name) → new[i]? = some v) := by
  obtain ⟨out, h1, h2, h3⟩ := struct_read_partial fields p P old m ms rest hd hl hf hp
  refine ⟨out, ?_, h2, h3⟩
  have hv : ∀ (ns : List (List UInt8 × Bool × Val)) (vs : List Val), ns.length = vs.length → (withValues ns vs).map (·.2.2) = vs := by
    intro ns
    induction ns with
    | nil => intro vs h; cases vs with
      | nil => rfl
      | cons _ _ => simp at h
    | cons n ns ih => intro vs h; cases vs with
      | nil => simp at h
      | cons v vs =>
        have := ih vs (by simpa using h)
        simp only [withValues] at this ⊢
        simp [this]
  have hw : ∀ (ns : List (List UInt8 × Bool × Val)) (vs ws : List Val), ns.length = vs.length → withValues (withValues ns vs) ws = withValues ns ws := by
    intro ns
    induction ns with
    | nil => intro vs ws _; rfl
    | cons n ns ih => intro vs ws h; cases vs with
      | nil => simp at h
      | cons v vs => cases ws with
        | nil => rfl
        | cons w ws =>
          have := ih vs ws (by simpa using h)
          simp only [withValues] at this ⊢
          simp [this]
  have hlen : (names.map fun n => (n.1, n.2, Val.nilv)).length = old.length := by simp [hn, hl]
  unfold decStructVal
  dsimp only
  rw [hv _ _ hlen, h1]
  show Except.ok (Val.struct (withValues (withValues _ old) out), rest) = _
  rw [hw _ _ _ hlen]

/-- **C203** (partial): what the encoder writes for a struct with one written field is read back into that field. -/
theorem struct_trip_partial (fields : List Field) (p : Err) (old : List Val) (i : Nat) (goName tag : List UInt8) (ty : Ty) (v : Val) (rest : List UInt8)
    (hd : Distinct fields) (hl : old.length = fields.length) (hi : fields[i]? = some (plain goName tag ty)) (hv : Fits ty v)
    (name : List UInt8) (hn : Named (plain goName tag ty) name) (hne : name ≠ []) (hp : PlainName name) :
    ∃ out, encode (.struct [(encName (plain goName tag ty), false, v)]) = some out ∧ decStruct fields p old (out ++ rest) = .ok (old.set i v, rest) := by
  obtain ⟨text, e, hr⟩ := fits_reads ty v hv
  obtain ⟨cs, hcs, hcp⟩ := hp
  have hch : ∀ (cs : List Nat), (∀ c ∈ cs, Scalar c ∧ 0x20 ≤ c ∧ c ≠ 0x22 ∧ c ≠ 0x5C) → Chars false (cs.flatMap utf8) cs := by
    intro cs
    induction cs with
    | nil => intro _; exact .nil
    | cons c cs ih =>
      intro h
      obtain ⟨h1, h2, h3, h4⟩ := h c (by simp)
      rw [List.flatMap_cons]
      exact .raw c _ _ h1 h2 h3 h4 (ih (fun x hx => h x (by simp [hx])))
  have hname : encName (plain goName tag ty) = name := by
    have h := (named_iff _ _).1 hn
    unfold nameOf at h
    unfold encName
    split at h
    · next ht =>
      rw [ht, if_pos (show beforeComma [] = [] from rfl)]
      exact Option.some.inj h
    · split at h
      · cases h
      · have h := Option.some.inj h
        rw [h, if_neg hne]
  rw [hname]
  let m : Member := ⟨[], name, [], [], text, [], name, fun _ => v⟩
  have hwn : White [] := by intro c hc; simp at hc
  have hfit : ∀ m' ∈ [m], Fitting fields (fun _ _ => True) m' := by
    intro m' hm'
    simp only [List.mem_singleton] at hm'
    subst hm'
    exact ⟨⟨hwn, hwn, hwn, hwn, cs, by show Chars false name cs; rw [hcs]; exact hch cs hcp, hcs⟩, i, _, hi, hn, rfl, hr⟩
  obtain ⟨out, h1, h2, h3⟩ := struct_read_partial fields p (fun _ _ => True) old m [] rest hd hl hfit (fun _ _ _ => trivial)
  refine ⟨object m [], ?_, ?_⟩
  · simp [encode, encodeFields, e, object, Member.text, m]
  · rw [h1]
    congr 2
    refine List.ext_getElem? fun j => ?_
    rw [List.getElem?_set]
    by_cases hj : j < old.length
    · obtain ⟨g, hg⟩ : ∃ g, fields[j]? = some g := ⟨_, List.getElem?_eq_getElem (by omega)⟩
      obtain ⟨a, b⟩ := h3 j g old[j] hg (List.getElem?_eq_getElem hj)
      by_cases hij : i = j
      · subst hij
        rw [hi] at hg; cases hg
        rw [if_pos rfl, if_pos hj, a name hn]
        simp [result, m]
      · rw [if_neg hij, List.getElem?_eq_getElem hj]
        by_cases hno : ∀ n, ¬ Named g n
        · exact b hno
        · obtain ⟨n, hn'⟩ := Classical.not_forall.1 hno
          have hn' := Classical.not_not.1 hn'
          rw [a n hn']
          have hk : name ≠ n := by rintro rfl; exact hij (hd i j _ g _ hi hg hn hn')
          simp [result, m, hk]
    · rw [List.getElem?_eq_none (by omega)]
      split
      · next hij => rw [if_neg (by omega)]
      · rw [List.getElem?_eq_none (by omega)]

/-- `type T struct { A int8 "json:a,omitempty"; B string }` -/
def tFields : List Field := [plain [65] [97, 44, 111] (.int 8), plain [66] [] .str]

theorem tNames : ∀ f name, Named f name → f = tFields[0] ∧ name = [97] ∨ f = tFields[1] ∧ name = [66] ∨ f ∉ tFields := by
  intro f name h
  rw [named_iff] at h
  by_cases h0 : f = tFields[0]
  · subst h0
    left
    exact ⟨rfl, (Option.some.inj ((show nameOf tFields[0] = some [97] from rfl).symm.trans h)).symm⟩
  · by_cases h1 : f = tFields[1]
    · subst h1
      right; left
      exact ⟨rfl, (Option.some.inj ((show nameOf tFields[1] = some [66] from rfl).symm.trans h)).symm⟩
    · right; right
      intro hm
      simp only [tFields, List.mem_cons, List.not_mem_nil, or_false] at hm
      rcases hm with rfl | rfl
      · exact h0 rfl
      · exact h1 rfl

theorem tDistinct : Distinct tFields := by
  intro i j f g name hi hj hf hg
  rw [named_iff] at hf hg
  match i, j with
  | 0, 0 => rfl
  | 1, 1 => rfl
  | 0, 1 =>
    simp only [tFields, List.getElem?_cons_zero, List.getElem?_cons_succ, Option.some.injEq] at hi hj
    subst hi; subst hj
    rw [show nameOf (plain [65] [97, 44, 111] (.int 8)) = some [97] from rfl] at hf
    rw [show nameOf (plain [66] [] .str) = some [66] from rfl] at hg
    rw [← hf] at hg
    exact absurd hg (by decide)
  | 1, 0 =>
    simp only [tFields, List.getElem?_cons_zero, List.getElem?_cons_succ, Option.some.injEq] at hi hj
    subst hi; subst hj
    rw [show nameOf (plain [65] [97, 44, 111] (.int 8)) = some [97] from rfl] at hg
    rw [show nameOf (plain [66] [] .str) = some [66] from rfl] at hf
    rw [← hf] at hg
    exact absurd hg (by decide)
  | i + 2, _ => simp [tFields] at hi
  | _, j + 2 => simp [tFields] at hj

/-- `{ "B":"x", "a":1,"a" : 2}` makes `T{A: 2, B: "x"}`. -/
example : ∃ out, decStruct tFields .eof [.int 0, .str []] ([123, 32, 34, 66, 34, 58, 34, 120, 34, 44, 32, 34, 97, 34, 58, 49, 44, 34, 97, 34, 32, 58, 32, 50, 125] ++ [10]) = .ok (out, [10]) ∧
    out[0]? = some (.int 2) ∧ out[1]? = some (.str [120]) := by
  have hw0 : White [] := by intro c hc; simp at hc
  have hw1 : White [32] := by intro c hc; simp only [List.mem_singleton] at hc; subst hc; decide
  have hk : ∀ b : UInt8, b.toNat = 97 ∨ b.toNat = 66 → ∃ cs, Chars false [b] cs ∧ [b] = cs.flatMap utf8 := by
    rintro b (h | h)
    · have : b = 97 := UInt8.toNat_inj.1 h
      subst this
      exact ⟨[97], .raw 97 [] [] (by unfold Scalar; omega) (by decide) (by decide) (by decide) .nil, rfl⟩
    · have : b = 66 := UInt8.toNat_inj.1 h
      subst this
      exact ⟨[66], .raw 66 [] [] (by unfold Scalar; omega) (by decide) (by decide) (by decide) .nil, rfl⟩
  have hone : ∀ n : Int, ∀ b : UInt8, 0 ≤ n → n < 10 → encode (.int n) = some [b] → Reads (plain [65] [97, 44, 111] (.int 8)).dec (fun _ => True) [b] (fun _ => .int n) := by
    intro n b h0 h1 hb
    obtain ⟨t, e, hr⟩ := fits_reads (.int 8) (.int n) (.int 8 n (by decide) (by decide) (by simp; omega) (by simp; omega))
    rw [hb] at e; cases e; exact hr
  have hx : Reads (plain [66] [] .str).dec (fun _ => True) [34, 120, 34] (fun _ => .str [120]) := by
    obtain ⟨t, e, hr⟩ := fits_reads .str (.str [120]) (.str _ ⟨[120], rfl, by intro c hc; simp only [List.mem_singleton] at hc; subst hc; unfold Scalar; omega⟩)
    have : encode (.str [120]) = some [34, 120, 34] := by decide +kernel
    rw [this] at e; cases e; exact hr
  let b : Member := ⟨[32], [66], [], [], [34, 120, 34], [], [66], fun _ => .str [120]⟩
  let a1 : Member := ⟨[32], [97], [], [], [49], [], [97], fun _ => .int 1⟩
  let a2 : Member := ⟨[], [97], [32], [32], [50], [], [97], fun _ => .int 2⟩
  have na : Named (plain [65] [97, 44, 111] (.int 8)) [97] := (named_iff _ _).2 rfl
  have nb : Named (plain [66] [] .str) [66] := (named_iff _ _).2 rfl
  have hf : ∀ m' ∈ [b, a1, a2], Fitting tFields (fun _ _ => True) m' := by
    intro m' hm'
    simp only [List.mem_cons, List.not_mem_nil, or_false] at hm'
    rcases hm' with rfl | rfl | rfl
    · exact ⟨⟨hw1, hw0, hw0, hw0, hk 66 (.inr rfl)⟩, 1, _, rfl, nb, rfl, hx⟩
    · exact ⟨⟨hw1, hw0, hw0, hw0, hk 97 (.inl rfl)⟩, 0, _, rfl, na, rfl, hone 1 49 (by decide) (by decide) (by decide +kernel)⟩
    · exact ⟨⟨hw0, hw1, hw1, hw0, hk 97 (.inl rfl)⟩, 0, _, rfl, na, rfl, hone 2 50 (by decide) (by decide) (by decide +kernel)⟩
  obtain ⟨out, h1, _, h3⟩ := struct_read_partial tFields .eof (fun _ _ => True) [.int 0, .str []] b [a1, a2] [10] tDistinct rfl hf (fun _ _ _ => trivial)
  refine ⟨out, h1, ?_, ?_⟩
  · rw [(h3 0 _ (.int 0) rfl rfl).1 [97] na]; rfl
  · rw [(h3 1 _ (.str []) rfl rfl).1 [66] nb]; rfl

/-- **C203** (refuted): after an empty object its closing brace is still in the stream. -/
theorem empty_object_fails (fields : List Field) (p : Err) (old : List Val) (rest : List UInt8) :
    decStruct fields p old ([123, 125] ++ rest) = .ok (old, 125 :: rest) := rfl

/-- **C203** (refuted): a member no field is named by makes the object be refused, unless its value is `n`, `u`, `l`, `l` and a zero byte. -/
theorem unknown_member_fails (fields : List Field) (p : Err) (old : List Val) (m : Member) (ms : List Member) (rest : List UInt8) (hm : m.Ok)
    (hu : ∀ f ∈ fields, ¬ Named f m.key) (hv : ∃ c t, m.value = c :: t ∧ c.toNat ∉ [0x20, 0x09, 0x0A, 0x0D] ∧ c ≠ 110) :
    decStruct fields p old (object m ms ++ rest) = .error .notObject := by
  obtain ⟨w1, w2, w3, w4, cs, hcs, hk⟩ := hm
  obtain ⟨x, xs, hx, hxw, hxn⟩ := hv
  obtain ⟨tail, htail⟩ : ∃ tail, object m ms ++ rest = 123 :: (m.w1 ++ (34 :: (m.keyText ++ 34 :: (m.w2 ++ (58 :: (m.w3 ++ (x :: tail))))))) :=
    ⟨xs ++ (m.w4 ++ (ms.flatMap (fun m => [44] ++ m.text) ++ 125 :: rest)), by simp [object, Member.text, hx]⟩
  rw [htail]
  unfold decStruct
  rw [skipWs_char (by decide), ok_bind]
  dsimp only
  rw [if_neg (by decide), skipWs_white _ _ w1, skipWs_char (by decide), ok_bind, if_neg (by simp), List.length_cons]
  unfold memberLoop
  rw [skipWs_char (by decide), ok_bind]
  have hkey : decString (34 :: (m.keyText ++ 34 :: (m.w2 ++ (58 :: (m.w3 ++ (x :: tail)))))) = .ok (m.key, m.w2 ++ (58 :: (m.w3 ++ (x :: tail)))) := by
    rw [decString, if_pos rfl, decChars_ok hcs, hk]; rfl
  rw [hkey, ok_bind]
  dsimp only
  rw [skipWs_white _ _ w2, skipWs_char (by decide), ok_bind]
  dsimp only
  rw [if_neg (by decide), skipWs_white _ _ w3, skipWs_char (not_white hxw), ok_bind,
    find_none m.key fields 0 (fun f hf h => hu f hf ((named_iff _ _).2 h))]
  dsimp only
  have : skipValue (x :: tail) = .error .notObject := by
    unfold skipValue
    rw [skipWs_char (not_white hxw), ok_bind]
    have hnull : nullTest (x :: tail) = .ok (false, x :: tail) := by unfold nullTest; rw [if_neg hxn]
    rw [hnull, ok_bind]
    rfl
  rw [this]
  rfl

/-- `{"z":true}` -/
example : decStruct tFields .eof [.int 0, .str []] [123, 34, 122, 34, 58, 116, 114, 117, 101, 125] = .error .notObject := by
  have hw0 : White [] := by intro c hc; simp at hc
  refine unknown_member_fails tFields .eof [.int 0, .str []] ⟨[], [122], [], [], [116, 114, 117, 101], [], [122], id⟩ [] []
    ⟨hw0, hw0, hw0, hw0, [122], .raw 122 [] [] (by unfold Scalar; omega) (by decide) (by decide) (by decide) .nil, rfl⟩ ?_
    ⟨116, [114, 117, 101], rfl, by decide, by decide⟩
  intro f hf hn
  rcases tNames f _ hn with ⟨_, h⟩ | ⟨_, h⟩ | h
  · exact absurd h (by decide)
  · exact absurd h (by decide)
  · exact h hf

/-- **C203** (refuted): naming an unexported field panics, whatever `p` stands for it. -/
theorem unexported_fails (fields : List Field) (p : Err) (old : List Val) (m : Member) (ms : List Member) (rest : List UInt8) (hm : m.Ok) (hd : Distinct fields)
    (i : Nat) (f : Field) (hi : fields[i]? = some f) (hn : Named f m.key) (he : f.exported = false)
    (hv : ∃ c t, m.value = c :: t ∧ c.toNat ∉ [0x20, 0x09, 0x0A, 0x0D]) :
    decStruct fields p old (object m ms ++ rest) = .error p := by
  obtain ⟨w1, w2, w3, w4, cs, hcs, hk⟩ := hm
  obtain ⟨x, xs, hx, hxw⟩ := hv
  obtain ⟨tail, htail⟩ : ∃ tail, object m ms ++ rest = 123 :: (m.w1 ++ (34 :: (m.keyText ++ 34 :: (m.w2 ++ (58 :: (m.w3 ++ (x :: tail))))))) :=
    ⟨xs ++ (m.w4 ++ (ms.flatMap (fun m => [44] ++ m.text) ++ 125 :: rest)), by simp [object, Member.text, hx]⟩
  rw [htail]
  unfold decStruct
  rw [skipWs_char (by decide), ok_bind]
  dsimp only
  rw [if_neg (by decide), skipWs_white _ _ w1, skipWs_char (by decide), ok_bind, if_neg (by simp), List.length_cons]
  unfold memberLoop
  rw [skipWs_char (by decide), ok_bind]
  have hkey : decString (34 :: (m.keyText ++ 34 :: (m.w2 ++ (58 :: (m.w3 ++ (x :: tail)))))) = .ok (m.key, m.w2 ++ (58 :: (m.w3 ++ (x :: tail)))) := by
    rw [decString, if_pos rfl, decChars_ok hcs, hk]; rfl
  rw [hkey, ok_bind]
  dsimp only
  rw [skipWs_white _ _ w2, skipWs_char (by decide), ok_bind]
  dsimp only
  have hfind : find m.key 0 fields = some i := by
    have := find_some m.key fields 0 i f hi ((named_iff _ _).1 hn) (fun j' g hj hg => hd j' i g f m.key hj hi ((named_iff _ _).2 hg) hn)
    simpa using this
  rw [if_neg (by decide), skipWs_white _ _ w3, skipWs_char (not_white hxw), ok_bind, hfind]
  dsimp only
  have : intoField fields p i old (x :: tail) = .error p := by
    unfold intoField
    rw [hi]
    cases old[i]? with
    | none => rfl
    | some _ => dsimp only; rw [if_neg (by simp [he])]
  rw [this]
  rfl

/-- **C203** (refuted): a field tagged with options only is written by its Go name and read by the empty name; one tagged `-` is written by
that name and not read at all. -/
theorem names_fails (goName opts : List UInt8) (hg : goName ≠ []) (dec : Decoder) :
    encName ⟨goName, 44 :: opts, true, dec⟩ = goName ∧ ¬ Named ⟨goName, 44 :: opts, true, dec⟩ goName ∧ Named ⟨goName, 44 :: opts, true, dec⟩ [] ∧
    encName ⟨goName, [45], true, dec⟩ = [45] ∧ ∀ name, ¬ Named ⟨goName, [45], true, dec⟩ name := by
  refine ⟨rfl, ?_, ?_, rfl, ?_⟩
  · rw [named_iff]
    rw [show nameOf ⟨goName, 44 :: opts, true, dec⟩ = some [] from rfl]
    intro h; exact hg (Option.some.inj h).symm
  · rw [named_iff]; rfl
  · intro name; rw [named_iff]; rw [show nameOf ⟨goName, [45], true, dec⟩ = none from rfl]; simp

end Verif.Jrpc.Obj
