import Verif.Xyz.TaggedJson
import Verif.Xyz.SwitchProps
/-!
# C68: tagged unions as JSON, and C70: as text
-/
namespace Verif.Xyz

/-- The values of a case are restored from the JSON they are written as. -/
def Faithful {V : Type} (cd : Codec V) (i : Nat) (v : V) : Prop := cd.dec i (cd.enc i v) = some v

/-- C68 in full: a union that holds a value of a case is restored from its JSON, to that case
and that value, if the value itself would be and every case has a `json` tag of its own. -/
def JsonUnionClaim : Prop :=
  ∀ (V : Type) (cd : Codec V) (cases : List CaseJ) (i : Nat) (c : CaseJ) (v : V),
    cases[i]? = some c → (∀ d ∈ cases, d.text = none ∧ d.void = false ∧ d.json ≠ []) →
    (cases.map (·.json)).Nodup → Faithful cd i v →
    unmarshalJ cd cases (marshalJ cd i c (some v)) = .ok i (some v)

theorem cut_none (sep : Char) (s : Str) (h : sep ∉ s) : cut sep s = (s, [], false) := by
  induction s with
  | nil => rfl
  | cons c s ih =>
    rw [cut, if_neg (by rintro rfl; exact h (by simp)), ih (fun hh => h (by simp [hh]))]

theorem cut_at (sep : Char) (a b : Str) (h : sep ∉ a) : cut sep (a ++ sep :: b) = (a, b, true) := by
  induction a with
  | nil => rw [List.nil_append, cut, if_pos rfl]
  | cons c a ih =>
    rw [List.cons_append, cut, if_neg (by rintro rfl; exact h (by simp)), ih (fun hh => h (by simp [hh]))]

/-- Every earlier case passes, and this one takes it. -/
theorem tryFrom_at {V : Type} (cd : Codec V) (j : J) (r : Try V) (hr : ∀ ft, r ≠ .next ft) : ∀ (cases : List CaseJ) (b i : Nat) (c : CaseJ),
    cases[i]? = some c → (∀ k d, k < i → cases[k]? = some d → tryCase cd false (b + k) d j = .next false) →
    tryCase cd false (b + i) c j = r → tryFrom cd j false b cases = r
  | [], _, _, _, h, _, _ => by simp at h
  | d :: cs, b, 0, c, h, _, ht => by
    simp at h; subst h
    rw [tryFrom]
    simp only [Nat.add_zero] at ht
    rw [ht]
    cases r with
    | next ft => exact absurd rfl (hr ft)
    | _ => rfl
  | d :: cs, b, i + 1, c, h, hn, ht => by
    have h0 := hn 0 d (by omega) rfl
    rw [tryFrom, Nat.add_zero] at *
    rw [h0]
    simp only
    refine tryFrom_at cd j r hr cs (b + 1) i c (by simpa using h) (fun k e hk he => ?_) ?_
    · have := hn (k + 1) e (by omega) (by simpa using he)
      rw [← this]; congr 1; omega
    · rw [← ht]; congr 1; omega

/-! ## Wrapped by name -/

/-- A tag that is just a name. -/
def PlainName (s : Str) : Prop := s ≠ [] ∧ ',' ∉ s ∧ '?' ∉ s

theorem parts_name {s : Str} (h : PlainName s) : parts s =
    { base := s, kind := [], name := s, rule := [], hasKey := false, key := [], val := [], hasConst := false } := by
  unfold parts
  simp only [cut_none ',' s h.2.1, cut_none '?' s h.2.2]
  rfl

/-- C68: when every case is tagged with a name of its own, each value comes back as its case,
however many cases there are. -/
theorem json_names_partial {V : Type} (cd : Codec V) (cases : List CaseJ) (i : Nat) (c : CaseJ) (v : V)
    (hc : cases[i]? = some c) (hall : ∀ d ∈ cases, d.text = none ∧ d.void = false ∧ PlainName d.json)
    (hd : (cases.map (·.json)).Nodup) (hf : Faithful cd i v) :
    unmarshalJ cd cases (marshalJ cd i c (some v)) = .ok i (some v) := by
  obtain ⟨h1, h2, h3⟩ := hall c (List.mem_of_getElem? hc)
  have hm : marshalJ cd i c (some v) = .obj [(c.json, cd.enc i v)] := by
    unfold marshalJ
    rw [h1]
    simp only [parts_name h3]
    rw [if_neg (by decide), if_pos h3.1]
    simp [encOpt]
  rw [hm]
  have hstep : ∀ (k : Nat) (d : CaseJ), d ∈ cases → tryCase cd false k d (.obj [(c.json, cd.enc i v)]) =
      (match [(c.json, cd.enc i v)].lookup d.json with
        | some x => decode cd false k d x
        | none => .next false) := by
    intro k d hdm
    obtain ⟨a1, a2, a3⟩ := hall d hdm
    unfold tryCase
    rw [a1]
    simp only
    rw [if_neg a3.1, parts_name a3]
    unfold tryKind
    simp only
    rw [if_neg (by decide), if_neg (by decide), if_neg (by decide), if_neg (by decide), if_neg (by decide)]
    unfold tryBase
    simp only
    rw [if_neg a3.1]
    simp only [asObject, if_true]
    rfl
  apply tryFrom_at cd _ _ (by simp) cases 0 i c hc
  · intro k d hk hkd
    rw [hstep _ d (List.mem_of_getElem? hkd)]
    have hne : d.json ≠ c.json := by
      intro e
      have hlt : i < (cases.map (·.json)).length := by
        rw [List.length_map]; exact (List.getElem?_eq_some_iff.mp hc).1
      have hk' : k < (cases.map (·.json)).length := by omega
      have := (List.Nodup.getElem_inj_iff hd (hi := hk') (hj := hlt)).mp (by
        simp only [List.getElem_map]
        rw [(List.getElem?_eq_some_iff.mp hc).2, (List.getElem?_eq_some_iff.mp hkd).2, e])
      omega
    have : [(c.json, cd.enc i v)].lookup d.json = none := by
      simp [List.lookup, beq_eq_false_iff_ne.mpr hne]
    rw [this]
  · rw [hstep _ c (List.mem_of_getElem? hc)]
    simp only [List.lookup, beq_self_eq_true, decode, h2]
    rw [Nat.zero_add]
    unfold Faithful at hf
    simp [hf]

/-! ## Told apart by a constant -/

/-- A tag `name?key=val`. -/
structure ConstTag where
  /-- The wrapper's name. -/
  name : Str
  /-- The constant's name. -/
  key : Str
  /-- The constant. -/
  val : Str

/-- Its text. -/
def ConstTag.text (t : ConstTag) : Str := t.name ++ '?' :: (t.key ++ '=' :: t.val)

/-- None of the parts has the characters that separate them, and the constant is plain. -/
def ConstTag.Good (t : ConstTag) : Prop :=
  t.name ≠ [] ∧ t.key ≠ [] ∧ t.key ≠ t.name ∧ (∀ c ∈ [',', '?', '='], c ∉ t.name ∧ c ∉ t.key ∧ c ∉ t.val) ∧
    t.val.all plainChar = true

theorem parts_const {t : ConstTag} (h : t.Good) : parts t.text =
    { base := t.text, kind := [], name := t.name, rule := t.key ++ '=' :: t.val, hasKey := true, key := t.key,
      val := t.val, hasConst := true } := by
  obtain ⟨_, _, _, h, _⟩ := h
  have c1 := h ',' (by simp)
  have c2 := h '?' (by simp)
  have c3 := h '=' (by simp)
  unfold parts
  have e1 : cut ',' t.text = (t.text, [], false) := by
    apply cut_none
    unfold ConstTag.text
    simp [c1]
  simp only [e1]
  have e2 : cut '?' t.text = (t.name, t.key ++ '=' :: t.val, true) := cut_at _ _ _ c2.1
  simp only [e2, cut_at '=' t.key t.val c3.2.1]

/-- The case of such a tag. -/
def ConstTag.case (isString : Nat → Bool) (k : Nat) (t : ConstTag) : CaseJ :=
  { text := none, json := t.text, void := false, isString := isString k }

/-- How a case of such a tag takes an object. -/
theorem tryCase_const {V : Type} (cd : Codec V) (isString : Nat → Bool) (k : Nat) (d : ConstTag) (h : d.Good)
    (fs : List (Str × J)) (s : Str) (hs : fs.lookup d.key = some (.str s)) :
    tryCase cd false k (d.case isString k) (.obj fs) =
      if d.val = s then
        (match fs.lookup d.name with
        | some x => decode cd false k (d.case isString k) x
        | none => .err)
      else .next false := by
  unfold tryCase ConstTag.case
  simp only
  have hne : d.text ≠ [] := by
    unfold ConstTag.text; simp
  rw [if_neg hne, parts_const h]
  unfold tryKind
  simp only
  rw [if_neg (by decide), if_neg (by decide), if_neg (by decide), if_neg (by decide), if_neg (by decide)]
  unfold tryBase
  simp only
  rw [if_neg hne]
  simp only [asObject]
  rw [if_neg (by simp), if_neg (by simp [h.1]), hs]
  by_cases he : d.val = s
  · rw [if_pos (by simp [quotedAs, ← he, h.2.2.2.2]), if_pos he]
    rfl
  · rw [if_neg (by simp [quotedAs, Ne.symm he]), if_neg he]

theorem marshal_const {V : Type} (cd : Codec V) (isString : Nat → Bool) (i : Nat) (t : ConstTag) (h : t.Good) (v : V) :
    marshalJ cd i (t.case isString i) (some v) = .obj [(t.name, cd.enc i v), (t.key, .str t.val)] := by
  obtain ⟨n1, n2, n3, n4, n5⟩ := id h
  unfold marshalJ ConstTag.case
  simp only [parts_const h]
  rw [if_neg (by decide), if_pos n1, if_pos n2]
  simp [setName, encOpt, n3.symm]

/-- C68: when the cases are tagged `name?key=val`, with the same key and constants of their own,
each value comes back as its case, whatever other cases are declared after them. -/
theorem json_const_partial {V : Type} (cd : Codec V) (tags : List ConstTag) (isString : Nat → Bool) (key : Str)
    (more : List CaseJ)
    (hg : ∀ t ∈ tags, t.Good ∧ t.key = key) (hd : (tags.map (·.val)).Nodup) (i : Nat) (t : ConstTag)
    (ht : tags[i]? = some t) (v : V) (hf : Faithful cd i v) :
    unmarshalJ cd (tags.mapIdx (fun k t => t.case isString k) ++ more) (marshalJ cd i (t.case isString i) (some v)) =
      .ok i (some v) := by
  obtain ⟨hg1, hkey⟩ := hg t (List.mem_of_getElem? ht)
  obtain ⟨n1, n2, n3, n4, n5⟩ := id hg1
  have hi : i < tags.length := (List.getElem?_eq_some_iff.mp ht).1
  rw [marshal_const cd isString i t hg1]
  have lookKey : [(t.name, cd.enc i v), (t.key, J.str t.val)].lookup t.key = some (.str t.val) := by
    simp [List.lookup, beq_eq_false_iff_ne.mpr n3]
  apply tryFrom_at cd _ _ (by simp) _ 0 i (t.case isString i)
  · rw [List.getElem?_append_left (by simpa using hi)]
    simp [ht]
  · intro k d hk hkd
    rw [List.getElem?_append_left (by simp; omega), List.getElem?_mapIdx] at hkd
    obtain ⟨dt, hdt, e⟩ := Option.map_eq_some_iff.mp hkd
    subst e
    obtain ⟨a1, a2⟩ := hg dt (List.mem_of_getElem? hdt)
    rw [Nat.zero_add, tryCase_const cd isString k dt a1 _ t.val (by rw [a2, ← hkey]; exact lookKey), if_neg]
    intro e
    have hlt : i < (tags.map (·.val)).length := by rw [List.length_map]; exact hi
    have hk' : k < (tags.map (·.val)).length := by omega
    have := (List.Nodup.getElem_inj_iff hd (hi := hk') (hj := hlt)).mp (by
      simp only [List.getElem_map]
      rw [(List.getElem?_eq_some_iff.mp ht).2, (List.getElem?_eq_some_iff.mp hdt).2, e])
    omega
  · rw [Nat.zero_add, tryCase_const cd isString i t hg1 _ t.val lookKey, if_pos rfl]
    unfold Faithful at hf
    simp [List.lookup, decode, ConstTag.case, hf]

theorem lookup_setName (k : Str) (x : J) (fs : List (Str × J)) : (setName k x fs).lookup k = some x := by
  unfold setName
  induction fs with
  | nil => simp [List.lookup]
  | cons f fs ih =>
    obtain ⟨n, y⟩ := f
    by_cases h : n = k
    · subst h; simpa using ih
    · rw [List.filter_cons_of_pos (by simp [h]), List.cons_append]
      simp [List.lookup, beq_eq_false_iff_ne.mpr (Ne.symm h)]
      simpa using ih

/-- C68, the documented mixture: after such cases comes one tagged `?key=val`, whose fields are
beside the constant. It comes back as itself too, if its own type does not mind the constant. -/
theorem json_merged_partial {V : Type} (cd : Codec V) (tags : List ConstTag) (isString : Nat → Bool) (key val : Str)
    (more : List CaseJ) (hg : ∀ t ∈ tags, t.Good ∧ t.key = key) (hd : val ∉ tags.map (·.val))
    (hkey : ',' ∉ key ∧ '?' ∉ key ∧ '=' ∉ key) (hval : ',' ∉ val ∧ '?' ∉ val)
    (v : V) (fs : List (Str × J)) (henc : cd.enc tags.length v = .obj fs)
    (hf : cd.dec tags.length (.obj (setName key (.str val) fs)) = some v) :
    unmarshalJ cd (tags.mapIdx (fun k t => t.case isString k) ++
        { text := none, json := '?' :: (key ++ '=' :: val), void := false, isString := false } :: more)
      (marshalJ cd tags.length { text := none, json := '?' :: (key ++ '=' :: val), void := false, isString := false }
        (some v)) = .ok tags.length (some v) := by
  have hp : parts ('?' :: (key ++ '=' :: val)) =
      { base := '?' :: (key ++ '=' :: val), kind := [], name := [], rule := key ++ '=' :: val, hasKey := true,
        key := key, val := val, hasConst := true } := by
    unfold parts
    have : cut ',' ('?' :: (key ++ '=' :: val)) = ('?' :: (key ++ '=' :: val), [], false) :=
      cut_none _ _ (by simp [hkey.1, hval.1])
    simp only [this]
    have e2 : cut '?' ('?' :: (key ++ '=' :: val)) = ([], key ++ '=' :: val, true) := by rw [cut, if_pos rfl]
    simp only [e2, cut_at '=' key val hkey.2.2]
  have hm : marshalJ cd tags.length
      { text := none, json := '?' :: (key ++ '=' :: val), void := false, isString := false } (some v) =
      .obj (setName key (.str val) fs) := by
    unfold marshalJ
    simp only [hp]
    rw [if_neg (by decide), if_neg (by simp), if_pos trivial]
    simp [encOpt, henc, merge]
  rw [hm]
  apply tryFrom_at cd _ _ (by simp) _ 0 tags.length
    { text := none, json := '?' :: (key ++ '=' :: val), void := false, isString := false }
  · rw [List.getElem?_append_right (by simp)]
    simp
  · intro k d hk hkd
    rw [List.getElem?_append_left (by simpa using hk), List.getElem?_mapIdx] at hkd
    obtain ⟨dt, hdt, e⟩ := Option.map_eq_some_iff.mp hkd
    subst e
    obtain ⟨a1, a2⟩ := hg dt (List.mem_of_getElem? hdt)
    rw [Nat.zero_add, tryCase_const cd isString k dt a1 _ val (by rw [a2]; exact lookup_setName _ _ _), if_neg]
    intro e
    exact hd (e ▸ List.mem_map_of_mem (List.mem_of_getElem? hdt))
  · rw [Nat.zero_add]
    unfold tryCase
    simp only
    rw [if_neg (by simp), hp]
    unfold tryKind
    simp only
    rw [if_neg (by decide), if_neg (by decide), if_neg (by decide), if_neg (by decide), if_neg (by decide)]
    unfold tryBase
    simp only [asObject]
    rw [if_neg (by simp), if_neg (by simp), if_pos (by simp)]
    simp [decode, hf]

/-! ## Told apart by the kind of JSON -/

/-- The kinds a tag can ask for. -/
inductive JKind where
  | string
  | number
  | object
  | array
  | null
deriving DecidableEq

/-- The tag. -/
def JKind.tag : JKind → Str
  | .string => ",string".toList
  | .number => ",number".toList
  | .object => ",object".toList
  | .array => ",array".toList
  | .null => ",null".toList

/-- The JSON is of that kind. -/
def JKind.Is : JKind → J → Prop
  | .string, .str _ => True
  | .number, .num _ => True
  | .object, .obj _ => True
  | .array, .arr _ => True
  | .null, .null => True
  | _, _ => False

/-- The case of that kind; those of strings are of a string type, and null has no value. -/
def JKind.case (k : JKind) : CaseJ :=
  { text := none, json := k.tag, void := decide (k = .null), isString := decide (k = .string) }

theorem tryCase_kind {V : Type} (cd : Codec V) (i : Nat) (k : JKind) (j : J) :
    (k.Is j → tryCase cd false i k.case j = if k = .null then .ok i none else decode cd false i k.case j) ∧
    (¬ k.Is j → tryCase cd false i k.case j = .next false) := by
  cases k <;> cases j <;> constructor <;> intro h <;> first | exact h.elim | exact absurd trivial h | rfl

theorem kinds_pass {V : Type} (cd : Codec V) (kinds : List JKind) (hd : kinds.Nodup) (i : Nat) (k : JKind)
    (hk : kinds[i]? = some k) (j : J) (his : k.Is j) (l : Nat) (d : CaseJ) (hl : l < i)
    (hld : (kinds.map JKind.case)[l]? = some d) : tryCase cd false (0 + l) d j = .next false := by
  rw [List.getElem?_map] at hld
  obtain ⟨kl, hkl, e⟩ := Option.map_eq_some_iff.mp hld
  subst e
  apply (tryCase_kind cd _ kl _).2
  intro hcon
  have : kl = k := by
    cases kl <;> cases k <;> cases j <;> first | rfl | exact his.elim | exact hcon.elim
  subst this
  have hlt : i < kinds.length := (List.getElem?_eq_some_iff.mp hk).1
  have := (List.Nodup.getElem_inj_iff hd (hi := (by omega : l < kinds.length)) (hj := hlt)).mp (by
    rw [(List.getElem?_eq_some_iff.mp hk).2, (List.getElem?_eq_some_iff.mp hkl).2])
  omega

/-- C68: when the cases ask for different kinds of JSON, and the values are written as that kind,
each value comes back as its case. -/
theorem json_kinds_partial {V : Type} (cd : Codec V) (kinds : List JKind) (hd : kinds.Nodup) (i : Nat) (k : JKind)
    (hk : kinds[i]? = some k) (hn : k ≠ .null) (v : V) (his : k.Is (cd.enc i v)) (hf : Faithful cd i v) :
    unmarshalJ cd (kinds.map JKind.case) (marshalJ cd i k.case (some v)) = .ok i (some v) := by
  have hm : marshalJ cd i k.case (some v) = cd.enc i v := by
    cases k <;> first | rfl | exact absurd rfl hn
  rw [hm]
  apply tryFrom_at cd _ _ (by simp) _ 0 i k.case
  · simp [hk]
  · intro l d hl hld
    exact kinds_pass cd kinds hd i k hk _ his l d hl hld
  · rw [Nat.zero_add, (tryCase_kind cd _ k _).1 his, if_neg hn]
    unfold Faithful at hf
    simp [decode, JKind.case, hf, hn]

/-- And the case of null is null. -/
theorem json_null_partial {V : Type} (cd : Codec V) (kinds : List JKind) (hd : kinds.Nodup) (i : Nat)
    (hk : kinds[i]? = some .null) :
    marshalJ cd i JKind.null.case none = .null ∧
    unmarshalJ cd (kinds.map JKind.case) .null = .ok i none := by
  refine ⟨rfl, ?_⟩
  apply tryFrom_at cd _ _ (by simp) _ 0 i JKind.null.case
  · simp [hk]
  · intro l d hl hld
    exact kinds_pass cd kinds hd i .null hk .null trivial l d hl hld
  · rw [Nat.zero_add, (tryCase_kind cd _ .null .null).1 trivial, if_pos rfl]

/-! ## Texts -/

/-- A case without a value and with a text. -/
def textCase (t : Str) : CaseJ := { text := some t, json := [], void := true, isString := false }

/-- C68: when every case is a different text (with no verbs in it), each comes back as itself. -/
theorem json_texts_partial {V : Type} (cd : Codec V) (texts : List Str) (hd : texts.Nodup) (i : Nat) (t : Str)
    (ht : texts[i]? = some t) (hv : '%' ∉ t) :
    unmarshalJ cd (texts.map textCase) (marshalJ cd i (textCase t) none) = .ok i none := by
  have hm : marshalJ cd i (textCase t) none = .str t := by simp [marshalJ, textCase, hv]
  rw [hm]
  apply tryFrom_at cd _ _ (by simp) _ 0 i (textCase t)
  · simp [ht]
  · intro l d hl hld
    rw [List.getElem?_map] at hld
    obtain ⟨tl, htl, e⟩ := Option.map_eq_some_iff.mp hld
    subst e
    simp only [tryCase, textCase, asString]
    rw [if_neg]
    intro e
    subst e
    have hlt : i < texts.length := (List.getElem?_eq_some_iff.mp ht).1
    have := (List.Nodup.getElem_inj_iff hd (hi := (by omega : l < texts.length)) (hj := hlt)).mp (by
      rw [(List.getElem?_eq_some_iff.mp ht).2, (List.getElem?_eq_some_iff.mp htl).2])
    omega
  · simp [tryCase, textCase, asString]

/-! ## Where it fails -/

/-- The values of the examples are numbers in an object. -/
def exCodec : Codec Int :=
  { enc := fun _ n => .obj [("n".toList, .num n)]
    dec := fun _ j => match j with
      | .obj fs => match fs.lookup "n".toList with
        | some (.num n) => some n
        | _ => none
      | _ => none
    decText := fun _ _ => none
    print := fun _ _ => [] }

/-- A case of a tag. -/
def tagged (json : String) : CaseJ := { text := none, json := json.toList, void := false, isString := false }

/-- C68 fails for the documented `?key=val` tags: whatever the constant, the first case takes
every object. -/
theorem json_fails_first : ¬ JsonUnionClaim ∧
    unmarshalJ exCodec [tagged "?type=a", tagged "?type=b"] (marshalJ exCodec 1 (tagged "?type=b") (some 5)) =
      .ok 0 (some 5) := by
  have h2 : unmarshalJ exCodec [tagged "?type=a", tagged "?type=b"]
      (marshalJ exCodec 1 (tagged "?type=b") (some 5)) = .ok 0 (some 5) := rfl
  refine ⟨fun h => ?_, h2⟩
  have := h Int exCodec [tagged "?type=a", tagged "?type=b"] 1 (tagged "?type=b") 5 rfl (by
    intro d hd; simp at hd; rcases hd with rfl | rfl <;> exact ⟨rfl, rfl, by decide⟩) (by decide) rfl
  rw [h2] at this
  injection this with h1 _
  cases h1

/-- In general: a case tagged `?key…` that comes first takes every object, even one without the
key. -/
theorem first_takes_all {V : Type} (cd : Codec V) (rule : Str) (cs : List CaseJ) (fs : List (Str × J))
    (hr : rule ≠ []) (hc : ',' ∉ rule) (b : Bool) (v : V) (hv : cd.dec 0 (.obj fs) = some v) :
    unmarshalJ cd ({ text := none, json := '?' :: rule, void := false, isString := b } :: cs) (.obj fs) =
      .ok 0 (some v) := by
  have hp : parts ('?' :: rule) =
      { base := '?' :: rule, kind := [], name := [], rule := rule, hasKey := true, key := (cut '=' rule).1,
        val := (cut '=' rule).2.1, hasConst := (cut '=' rule).2.2 } := by
    unfold parts
    have : cut ',' ('?' :: rule) = ('?' :: rule, [], false) := cut_none _ _ (by simp [hc])
    simp only [this]
    simp [cut]
  unfold unmarshalJ
  rw [tryFrom]
  have : tryCase cd false 0 { text := none, json := '?' :: rule, void := false, isString := b } (.obj fs) =
      .ok 0 (some v) := by
    unfold tryCase
    simp only
    rw [if_neg (by simp), hp]
    unfold tryKind
    simp only
    rw [if_neg (by decide), if_neg (by decide), if_neg (by decide), if_neg (by decide), if_neg (by decide)]
    unfold tryBase
    simp only [asObject]
    rw [if_neg (by simp), if_neg hr, if_pos (by simp)]
    simp [decode, hv]
  rw [this]

/-- A text case before others makes every object an error. -/
theorem text_first_refuses_objects {V : Type} (cd : Codec V) (t : Str) (cs : List CaseJ) (fs : List (Str × J)) :
    unmarshalJ cd (textCase t :: cs) (.obj fs) = .err := rfl

/-- A case without a value is written as null under its name, and reading that panics. -/
theorem void_name_panics {V : Type} (cd : Codec V) (s : Str) (hs : PlainName s) :
    marshalJ cd 0 { text := none, json := s, void := true, isString := false } none = .obj [(s, .null)] ∧
    unmarshalJ cd [{ text := none, json := s, void := true, isString := false }] (.obj [(s, .null)]) = .panic := by
  constructor
  · unfold marshalJ
    simp only [parts_name hs]
    rw [if_neg (by decide), if_pos hs.1]
    rfl
  · unfold unmarshalJ
    rw [tryFrom]
    have : tryCase cd false 0 { text := none, json := s, void := true, isString := false } (.obj [(s, .null)]) =
        .panic := by
      unfold tryCase
      simp only
      rw [if_neg hs.1, parts_name hs]
      unfold tryKind
      simp only
      rw [if_neg (by decide), if_neg (by decide), if_neg (by decide), if_neg (by decide), if_neg (by decide)]
      unfold tryBase
      simp only [asObject]
      rw [if_neg hs.1]
      simp [List.lookup, decode]
    rw [this]

/-- After a `,string` case of a number that did not match, later cases are read as texts too, so
the object of the second case is an error. -/
theorem string_leaks : marshalJ exCodec 1 (tagged "b") (some 5) = .obj [("b".toList, .obj [("n".toList, .num 5)])] ∧
    unmarshalJ exCodec [tagged "a,string", tagged "b"] (marshalJ exCodec 1 (tagged "b") (some 5)) = .err ∧
    unmarshalJ exCodec [tagged "b", tagged "a,string"] (marshalJ exCodec 0 (tagged "b") (some 5)) =
      .ok 0 (some 5) :=
  ⟨rfl, rfl, rfl⟩

/-- Three cases by name, the last read back. -/
example : unmarshalJ exCodec [tagged "cat", tagged "dog", tagged "fish"] (marshalJ exCodec 2 (tagged "fish") (some 7)) =
    .ok 2 (some 7) :=
  json_names_partial exCodec _ 2 (tagged "fish") 7 rfl (by
    intro d hd; simp at hd; rcases hd with rfl | rfl | rfl <;> exact ⟨rfl, rfl, by decide, by decide, by decide⟩)
    (by decide) rfl

/-- Two cases by constant, another after them. -/
example : unmarshalJ exCodec
    (([⟨"v".toList, "type".toList, "cat".toList⟩, ⟨"v".toList, "type".toList, "dog".toList⟩] : List ConstTag).mapIdx
      (fun k t => t.case (fun _ => false) k) ++ [tagged "?type=fish"])
    (marshalJ exCodec 1 (ConstTag.case (fun _ => false) 1 ⟨"v".toList, "type".toList, "dog".toList⟩) (some 7)) =
    .ok 1 (some 7) :=
  json_const_partial exCodec _ (fun _ => false) "type".toList _ (by
    intro t ht; simp at ht; rcases ht with rfl | rfl <;>
      exact ⟨⟨by decide, by decide, by decide, by decide, by decide⟩, rfl⟩) (by decide) 1
    ⟨"v".toList, "type".toList, "dog".toList⟩ rfl 7 rfl

/-- And that other one. -/
example : unmarshalJ exCodec
    (([⟨"v".toList, "type".toList, "cat".toList⟩, ⟨"v".toList, "type".toList, "dog".toList⟩] : List ConstTag).mapIdx
      (fun k t => t.case (fun _ => false) k) ++ [tagged "?type=fish"])
    (marshalJ exCodec 2 (tagged "?type=fish") (some 7)) = .ok 2 (some 7) :=
  json_merged_partial exCodec [⟨"v".toList, "type".toList, "cat".toList⟩, ⟨"v".toList, "type".toList, "dog".toList⟩]
    (fun _ => false) "type".toList "fish".toList [] (by
    intro t ht; simp at ht; rcases ht with rfl | rfl <;>
      exact ⟨⟨by decide, by decide, by decide, by decide, by decide⟩, rfl⟩) (by decide) (by decide) (by decide) 7
    [("n".toList, .num 7)] rfl rfl

/-- The documented kinds. -/
example : unmarshalJ exCodec ([JKind.null, JKind.string, JKind.number, JKind.object, JKind.array].map JKind.case)
    (marshalJ exCodec 3 JKind.object.case (some 7)) = .ok 3 (some 7) :=
  json_kinds_partial exCodec _ (by decide) 3 .object rfl (by decide) 7 trivial rfl

/-- Two texts. -/
example : unmarshalJ exCodec (["on".toList, "off".toList].map textCase) (marshalJ exCodec 1 (textCase "off".toList) none) =
    .ok 1 none :=
  json_texts_partial exCodec _ (by decide) 1 _ rfl (by decide)

/-! ## C70: texts -/

/-- C70: the text of a case that has one, read into any union, gives that case. -/
theorem union_text (texts : List Str) (hd : texts.Nodup) (i : Nat) (t : Str) (ht : texts[i]? = some t)
    (old : Option Nat) : unmarshalUnionText (texts.map textCase) old t = (some i, true) := by
  have hi : i < texts.length := (List.getElem?_eq_some_iff.mp ht).1
  unfold unmarshalUnionText
  cases h : firstFrom (fun i => ((texts.map textCase)[i]?).map (fun c => c.text.getD []) == some t) 0
      (texts.map textCase).length with
  | none =>
    have := firstFrom_none h i (by omega) (by simpa using hi)
    simp [ht, textCase] at this
  | some j =>
    obtain ⟨_, h2, h3, _⟩ := firstFrom_some h
    simp only [List.length_map] at h2
    have hj : j < texts.length := by omega
    simp [textCase, hj] at h3
    rw [List.getElem?_eq_getElem hi] at ht
    injection ht with ht
    have := (List.Nodup.getElem_inj_iff hd (hi := hj) (hj := hi)).mp (by rw [h3, ht])
    rw [this]

/-- The second of two. -/
example : unmarshalUnionText (["on".toList, "off".toList].map textCase) (some 0) "off".toList = (some 1, true) :=
  union_text _ (by decide) 1 _ rfl _

/-- C70 in full: a text that no case has is refused with an error. -/
def UnknownTextClaim : Prop :=
  ∀ (texts : List Str) (old : Option Nat) (t : Str), t ∉ texts →
    (unmarshalUnionText (texts.map textCase) old t).2 = false

/-- It is not: there is no error, and the union silently keeps the case it had. -/
theorem unknown_text_kept (texts : List Str) (old : Option Nat) (t : Str) (h : t ∉ texts) :
    unmarshalUnionText (texts.map textCase) old t = (old, true) := by
  unfold unmarshalUnionText
  cases hf : firstFrom (fun i => ((texts.map textCase)[i]?).map (fun c => c.text.getD []) == some t) 0
      (texts.map textCase).length with
  | none => rfl
  | some j =>
    obtain ⟨_, h2, h3, _⟩ := firstFrom_some hf
    simp only [List.length_map] at h2
    have hj : j < texts.length := by omega
    simp [textCase, hj] at h3
    exact absurd (h3 ▸ List.getElem_mem hj) h

/-- So the claim is false. -/
theorem unknown_text_fails : ¬ UnknownTextClaim := by
  intro h
  have h1 := h ["on".toList] (some 0) "up".toList (by decide)
  rw [unknown_text_kept ["on".toList] (some 0) "up".toList (by decide)] at h1
  cases h1

end Verif.Xyz
