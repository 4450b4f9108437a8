import Verif.Rest.WalkLemmas
/-!
# C42: destructured query parameters, C66: parameters that name a field
-/
namespace Verif.Rest
open Spec

/-- A query parameter stands for the field at a path of argument `k`: it is in the query, has
the dotted name and the type of that field, and its index reads the argument and the path. -/
structure Addresses (q : Parser) (fs : Fields) (k : Nat) (pm : Param) (path : List Nat) : Prop where
  query : pm.loc = .at false true
  named : ∃ cs t, chain fs path = some (cs, t) ∧ pm.name = dotted cs ∧ pm.ty = some (behind t)
  reads : q.heap.read pm.index = k :: path

/-- What is true of every parameter: like `Addresses`, but the index is only right if the
depth of the field is a power of two. -/
structure AddressesPow (q : Parser) (fs : Fields) (k : Nat) (pm : Param) (path : List Nat) : Prop where
  query : pm.loc = .at false true
  named : ∃ cs t, chain fs path = some (cs, t) ∧ pm.name = dotted cs ∧ pm.ty = some (behind t)
  reads : (∃ e, e ≤ 8 ∧ path.length = 2 ^ e) → q.heap.read pm.index = k :: path

/-- C42 in full: after `?%v`, which stands for the argument after the last one used in the
path, that argument itself is not sent, and for each of its leaves, once, there is a query
parameter that stands for it. `A` says what standing for it means. -/
def Destructures (A : Parser → Fields → Nat → Param → List Nat → Prop) : Prop :=
  ∀ (args : List Ty) (ps : List Piece), (∀ p ∈ ps, p.Clean) →
    UsesFit args.length (usesOf (pathSlots ps)) →
    ∀ k, (targets 0 ((pathSlots ps).map Slot.place)).getLastD 0 = k →
    ∀ arg fs, args[k]? = some arg → fieldsOf arg = some fs → FieldsNamed fs →
    ∃ q own new paths, parseTag args (writePath ps ++ "?%v".toList) [] = .ok q ∧
      q.list = own ++ new ∧ own.length = args.length ∧
      (∃ pm, own[k]? = some pm ∧ pm.loc = .void) ∧
      (∀ path, path ∈ paths ↔ LeafPath fs path) ∧ paths.Nodup ∧
      List.Forall₂ (A q fs k) new paths

private theorem strip_fields (t : Ty) : ∀ fs, fieldsOf t = some fs → ∃ b, t.strip = .struct b fs := by
  induction t using Ty.rec (motive_2 := fun _ => True) with
  | scalar b => intro fs h; simp [fieldsOf] at h
  | ptr t ih => intro fs h; rw [Ty.strip]; exact ih fs (by simpa [fieldsOf] using h)
  | struct b fs' _ => intro fs h; simp [fieldsOf] at h; subst h; exact ⟨b, rfl⟩
  | nil => trivial
  | cons => trivial

/-- C42: names, types, order and number of the parameters are right for every struct of any
shape; the index is right for fields at depth 1, 2, 4, 8, ... (up to 256), so for everything
up to two levels of structs. -/
theorem destructured_partial : Destructures AddressesPow := by
  intro args ps hp hfit k hk arg fs harg hfs hnamed
  obtain ⟨hka, _⟩ := List.getElem?_eq_some_iff.mp harg
  have hno := writePath_no_query ps hp
  have hn : ∀ s ∈ pathSlots ps, s.name ≠ [] := fun s hs => (pathSlots_clean ps hp s hs).1.1
  obtain ⟨p, h1, h2, hpos, hkn⟩ := bindAll_knows args (pathSlots ps) hn 0 [] (newParser args) rfl
    (knows_new args) (by simpa [usesOf] using hfit)
  rw [hk] at hpos
  obtain ⟨b, hstrip⟩ := strip_fields arg fs hfs
  unfold parseTag
  have ecut : cut '?' (writePath ps ++ "?%v".toList) = (writePath ps, "%v".toList, true) :=
    cut_append '?' (writePath ps) "%v".toList hno
  simp only [ecut, parsePath_slots args ps hp, h1, R.bind, if_true]
  have esplit : split '&' "%v".toList = ["%v".toList] := by decide
  rw [Parser.parseQuery]
  simp only [esplit, Parser.parseQueryParams]
  rw [if_pos (by decide)]
  obtain ⟨ex, hex, -⟩ := hkn.param k hka
  unfold Parser.destructure
  rw [if_neg (by rw [hpos, hkn.len]; omega), if_neg (by omega)]
  have epos : p.pos.toNat = k := by omega
  simp only [epos, hex, harg, hstrip]
  -- the walk
  have hgood : Good (p.heap.lit [k]).1 (p.heap.lit [k]).2 [k] := by
    refine ⟨rfl, [k], ?_, ?_, rfl⟩
    · simp [Heap.lit]
    · simp [Heap.lit, capOf, grow]
  obtain ⟨new, w1, w2, w3, w4, w5⟩ := walkFields_spec
    { p with list := p.list.set k { ex with loc := .void }, heap := (p.heap.lit [k]).1 } fs fs 0 []
    [k] (p.heap.lit [k]).2 hgood (by simp) (fun j => by rw [Nat.zero_add]) (by simp) hnamed
  have ej : joinDots [] = [] := rfl
  rw [ej] at w1 w2 w3 w4 w5
  generalize (Parser.walkFields { p with list := p.list.set k { ex with loc := .void }, heap := (p.heap.lit [k]).1 } fs 0 (p.heap.lit [k]).2 []) = w at *
  -- the body
  simp only [R.bind, Parser.parseBody]
  have hquery : ∀ pm ∈ new, pm.loc = .at false true := by
    intro pm hpm
    obtain ⟨i, hi, rfl⟩ := List.getElem_of_mem hpm
    have hi' : i < (pathsFields fs 0).length := by rw [← w5.length_eq]; exact hi
    exact (List.Forall₂.get w5 hi hi').query
  obtain ⟨list, h', e, hlen, hge, hread, hpm⟩ := bodyParams_spec args [] w.list 0 [] w.heap
    (by
      intro j q hj hb
      rw [w1] at hj
      rcases Nat.lt_or_ge j args.length with h | h
      · omega
      · rw [List.getElem?_append_right (by simp [hkn.len, h])] at hj
        have := hquery q (List.mem_of_getElem? hj)
        rw [this] at hb
        simp [Loc.body] at hb)
    (Or.inl rfl)
  rw [e]
  have hlk : (p.list.set k { ex with loc := .void }).length = args.length := by simp [hkn.len]
  have hll : list.length = args.length + new.length := by rw [hlen, w1]; simp [hkn.len]
  have enew : list.drop args.length = new := by
    apply List.ext_getElem?
    intro i
    rw [List.getElem?_drop]
    rcases Nat.lt_or_ge i new.length with h | h
    · have hw : w.list[args.length + i]? = some new[i] := by
        rw [w1]
        simp only
        rw [List.getElem?_append_right (by simp [hkn.len])]
        simp [hkn.len, h]
      obtain ⟨q', a1, a2, _⟩ := hpm _ _ hw
      rw [a1, a2 (by rw [hquery _ (List.getElem_mem h)]; simp [Loc.body]), List.getElem?_eq_getElem h]
    · rw [List.getElem?_eq_none (by omega), List.getElem?_eq_none h]
  refine ⟨_, list.take args.length, new, pathsFields fs 0, rfl, ?_, ?_, ?_, ?_, pathsFields_nodup fs 0, ?_⟩
  · simp only
    conv_lhs => rw [← List.take_append_drop args.length list]
    rw [enew]
  · rw [List.length_take]; omega
  · have hw : w.list[k]? = some { ex with loc := .void } := by
      rw [w1]
      simp only
      rw [List.getElem?_append_left (by rw [hlk]; exact hka)]
      rw [List.getElem?_set_self (by rw [hkn.len]; exact hka)]
    obtain ⟨q', a1, a2, _⟩ := hpm _ _ hw
    refine ⟨q', by rw [List.getElem?_take_of_lt hka]; exact a1, ?_⟩
    rw [a2 (by simp [Loc.body])]
  · intro path
    rw [pathsFields_iff fs fs 0 (fun j => by rw [Nat.zero_add])]
    constructor
    · exact fun h => h.2
    · intro h; exact ⟨by cases h <;> simp, h⟩
  · refine w5.imp ?_
    intro pm π st
    refine ⟨st.query, ?_, ?_⟩
    · obtain ⟨cs, t, c1, c2, c3⟩ := st.leads
      exact ⟨cs, t, c1, by rw [c2, dotted_eq]; rfl, c3⟩
    · rintro ⟨e, he, hl⟩
      have := capOf_full ⟨e, by omega⟩
      obtain ⟨r1, _⟩ := st.reads (by simpa [hl] using this)
      simp only
      rw [hread _ st.bound, r1]
      rfl

private def mk (n : String) : FieldInfo := { name := n.toList }
private def deep : Fields :=
  .cons (mk "A") (.struct false (.cons (mk "B") (.struct false
    (.cons (mk "X") (.scalar false) (.cons (mk "Y") (.scalar false) .nil))) .nil)) .nil

/-- What the parameters of a tag read. -/
private def readsOf : R Parser → List (List Nat)
  | .ok q => q.list.map (fun pm => q.heap.read pm.index)
  | _ => []

/-- `/users/{id=%v}?%v` with a struct of a scalar, a pointer to a struct and an embedded one: the
hypotheses of `destructured_partial` are met, and the parameters read their own fields. -/
example :
    let fs : Fields := .cons (mk "Name") (.scalar false)
      (.cons (mk "Home") (.ptr (.struct false (.cons (mk "Street") (.scalar true) (.cons (mk "No") (.scalar false) .nil))))
      (.cons { name := "Base".toList, anonymous := true } (.struct false (.cons (mk "Age") (.scalar false) .nil)) .nil))
    ∃ q own new paths, parseTag [.scalar false, .ptr (.struct false fs)] "/users/{id=%v}?%v".toList [] = .ok q ∧
      q.list = own ++ new ∧ own.length = 2 ∧ (∃ pm, own[1]? = some pm ∧ pm.loc = .void) ∧
      (∀ path, path ∈ paths ↔ LeafPath fs path) ∧ paths.Nodup ∧
      List.Forall₂ (AddressesPow q fs 1) new paths := by
  intro fs
  exact destructured_partial [.scalar false, .ptr (.struct false fs)]
    [.text "users/".toList, .slot "id".toList .next]
    (by
      intro p hp
      have : p = .text "users/".toList ∨ p = .slot "id".toList .next := by simpa using hp
      rcases this with rfl | rfl
      · exact ⟨by decide, by decide, by decide⟩
      · exact ⟨by simp [CleanName], trivial⟩)
    (by constructor <;> decide) 1 (by decide) _ fs rfl rfl
    (by simp [fs, FieldsNamed, TyNamed, mk])

/-- C42 fails: in `struct{ A struct{ B struct{ X, Y T } } }` the parameter `A.B.X` has the index
of `A.B.Y`. -/
theorem destructured_fails : ¬ Destructures Addresses := by
  intro h
  obtain ⟨q, own, new, paths, h1, h2, h3, h4, h5, h6, h7⟩ := h [.struct false deep] [] (by simp)
    ⟨by simp [pathSlots, usesOf, targets], by simp [pathSlots, usesOf, targets]⟩ 0 rfl _ deep rfl rfl
    (by simp [deep, FieldsNamed, TyNamed, mk])
  have hr : readsOf (parseTag [.struct false deep] (writePath [] ++ "?%v".toList) []) =
      [[], [0, 0, 0, 1], [0, 0, 0, 1]] := by decide
  rw [h1] at hr
  have hx : LeafPath deep [0, 0, 0] := by
    refine .down (f := mk "A") rfl rfl rfl rfl (.down (f := mk "B") rfl rfl rfl rfl (.here (f := mk "X") rfl rfl (Or.inl rfl)))
  obtain ⟨i, hi, he⟩ := List.getElem_of_mem ((h5 _).mpr hx)
  have hi' : i < new.length := by rw [h7.length_eq]; exact hi
  have hread := (List.Forall₂.get h7 hi' hi).reads
  rw [List.get_eq_getElem, List.get_eq_getElem, he] at hread
  have hm : q.heap.read new[i].index ∈ [[], [0, 0, 0, 1], [0, 0, 0, 1]] := by
    rw [← hr]
    refine List.mem_map.mpr ⟨new[i], ?_, rfl⟩
    rw [h2]
    exact List.mem_append_right _ (List.getElem_mem _)
  rw [hread] at hm
  revert hm
  decide

/-- A number in a destructuring format is ignored: `?%[2]v` destructures the first argument. -/
theorem destructured_index_ignored :
    (parseTag [.struct false (.cons (mk "X") (.scalar false) .nil), .struct false (.cons (mk "Y") (.scalar false) .nil)]
      "/a?%[2]v".toList [] matches .ok q) = true ∧
    readsOf (parseTag [.struct false (.cons (mk "X") (.scalar false) .nil), .struct false (.cons (mk "Y") (.scalar false) .nil)]
      "/a?%[2]v".toList []) = [[], [1], [0, 0]] := by
  constructor <;> decide

/-! ## C66 -/

/-- A tag with one braced parameter added a parameter that reads the field at a path of
argument `i`: it has the written name, the field's type, and travels in the path. -/
def NamesField (r : R Parser) (n : Nat) (param : List Char) (i : Nat) (path : List Nat) (t : Ty) : Prop :=
  ∃ q own pm, r = .ok q ∧ q.list = own ++ [pm] ∧ own.length = n ∧ pm.name = param ∧
    pm.ty = some t ∧ pm.loc = .at true false ∧ q.heap.read pm.index = i :: path

/-- C66 in full: a braced parameter without a format stands for the field of that name, or of
that `rest` tag, of the only struct argument. -/
def NamesFieldClaim : Prop :=
  ∀ (args : List Ty) (i : Nat) (arg : Ty) (fs : Fields), args[i]? = some arg → fieldsOf arg = some fs →
    (∀ j t, args[j]? = some t → j ≠ i → fieldsOf t = none) →
    (∀ ns path t, (∀ n ∈ ns, CleanField n) → NamePath fs ns path t →
      NamesField (parseTag args ("/{".toList ++ dots ns ++ "}".toList) []) args.length (dots ns) i path t) ∧
    (∀ k f t, fieldAt fs k = some (f, t) → CleanField f.restTag →
      (∀ j f' t', fieldAt fs j = some (f', t') → f'.name ≠ f.restTag ∧ f'.jsonTag ≠ f.restTag ∧
        (f'.restTag = f.restTag → j = k)) →
      NamesField (parseTag args ("/{".toList ++ f.restTag ++ "}".toList) []) args.length f.restTag i [k] t)

private theorem byName_of (fs : Fields) (n : Str) : ∀ (off i : Nat) (f : FieldInfo) (t : Ty),
    fieldAt fs i = some (f, t) → f.name = n →
    (∀ j f' t', fieldAt fs j = some (f', t') → f'.name = n → j = i) →
    fs.byName n off = some (off + i, t) := by
  induction fs using Fields.rec (motive_1 := fun _ => True) with
  | scalar => trivial
  | ptr => trivial
  | struct => trivial
  | nil => intro off i f t h; simp [fieldAt] at h
  | cons g u rest _ ih =>
    intro off i f t h hn huniq
    rw [Fields.byName]
    cases i with
    | zero =>
      simp [fieldAt] at h
      obtain ⟨rfl, rfl⟩ := h
      rw [if_pos hn]; rfl
    | succ i =>
      rw [if_neg (fun e => by have := huniq 0 g u rfl e; omega)]
      rw [fieldAt] at h
      rw [ih (off + 1) i f t h hn (fun j f' t' hj hn' => by
        have := huniq (j + 1) f' t' (by rw [fieldAt]; exact hj) hn'; omega)]
      congr 2; omega

private theorem byName_none (fs : Fields) (n : Str) : ∀ off : Nat,
    (∀ j f' t', fieldAt fs j = some (f', t') → f'.name ≠ n) → fs.byName n off = none := by
  induction fs using Fields.rec (motive_1 := fun _ => True) with
  | scalar => trivial
  | ptr => trivial
  | struct => trivial
  | nil => intro off _; rfl
  | cons g u rest _ ih =>
    intro off h
    rw [Fields.byName, if_neg (h 0 g u rfl)]
    exact ih (off + 1) (fun j f' t' hj => h (j + 1) f' t' (by rw [fieldAt]; exact hj))

private theorem byTag_of (fs : Fields) (n : Str) : ∀ (off i : Nat) (f : FieldInfo) (t : Ty),
    fieldAt fs i = some (f, t) → f.restTag = n →
    (∀ j f' t', fieldAt fs j = some (f', t') → f'.jsonTag ≠ n ∧ (f'.restTag = n → j = i)) →
    fs.byTag n off = some (off + i, f, t) := by
  induction fs using Fields.rec (motive_1 := fun _ => True) with
  | scalar => trivial
  | ptr => trivial
  | struct => trivial
  | nil => intro off i f t h; simp [fieldAt] at h
  | cons g u rest _ ih =>
    intro off i f t h hn huniq
    rw [Fields.byTag]
    cases i with
    | zero =>
      simp [fieldAt] at h
      obtain ⟨rfl, rfl⟩ := h
      rw [if_pos (Or.inl hn)]; rfl
    | succ i =>
      rw [if_neg (by rintro (e | e)
                     · have := (huniq 0 g u rfl).2 e; omega
                     · exact (huniq 0 g u rfl).1 e)]
      rw [fieldAt] at h
      rw [ih (off + 1) i f t h hn (fun j f' t' hj => by
        have := huniq (j + 1) f' t' (by rw [fieldAt]; exact hj)
        exact ⟨this.1, fun h => by have := this.2 h; omega⟩)]
      congr 2; omega

private theorem follow_of {fs : Fields} {ns : List Str} {path : List Nat} {t : Ty}
    (h : NamePath fs ns path t) : ∀ (b : Bool) (acc : List Nat),
    follow ns (.struct b fs) acc true = .ok (acc ++ path, t, true) := by
  induction h with
  | here h1 h2 h3 =>
    intro b acc
    rw [follow]
    simp only [byName_of _ _ 0 _ _ _ h1 h2 h3, follow, Nat.zero_add]
  | down h1 h2 h3 _ ih =>
    intro b acc
    rw [follow]
    simp only [byName_of _ _ 0 _ _ _ h1 h2 h3, ih, Nat.zero_add]
    simp

private theorem split_dots : ∀ (ns : List Str), ns ≠ [] → (∀ n ∈ ns, '.' ∉ n) → split '.' (dots ns) = ns
  | [], h, _ => absurd rfl h
  | [x], _, h => split_none _ _ (h x (by simp))
  | x :: y :: xs, _, h => by
    rw [dots, split_append _ _ _ (h x (by simp)), split_dots (y :: xs) (by simp) (fun n hn => h n (by simp [hn]))]

private theorem dots_plain (c : Char) (hc : c ≠ '.') : ∀ (ns : List Str), (∀ n ∈ ns, c ∉ n) → c ∉ dots ns
  | [], _ => by simp [dots]
  | [x], h => h x (by simp)
  | x :: y :: xs, h => by
    have h1 := h x (by simp)
    have h2 := dots_plain c hc (y :: xs) (fun n hn => h n (by simp [hn]))
    simp [dots, h1, h2, hc]

private theorem scalar_strip (t : Ty) (h : fieldsOf t = none) : ∃ b, t.strip = .scalar b := by
  induction t using Ty.rec (motive_2 := fun _ => True) with
  | scalar b => exact ⟨b, rfl⟩
  | ptr t ih => rw [Ty.strip]; exact ih (by simpa [fieldsOf] using h)
  | struct b fs' _ => simp [fieldsOf] at h
  | nil => trivial
  | cons => trivial

/-- Arguments that are no structs are passed over. -/
private theorem structParam_skip (param : Str) (arg : Ty) (post : List Ty) : ∀ (pre : List Ty) (off : Nat),
    (∀ t ∈ pre, fieldsOf t = none) →
    structParam param (pre ++ arg :: post) off = structParam param (arg :: post) (off + pre.length) := by
  intro pre
  induction pre with
  | nil => intro off _; rfl
  | cons t pre ih =>
    intro off h
    obtain ⟨b, hb⟩ := scalar_strip t (h t (by simp))
    rw [List.cons_append, structParam]
    simp only [hb]
    rw [ih (off + 1) (fun x hx => h x (by simp [hx]))]
    congr 1; simp; omega

/-- A tag with one braced plain parameter. -/
private theorem parse_braced (args : List Ty) (param : Str) (hb : '{' ∉ param) (hc : '}' ∉ param)
    (hq : '?' ∉ param) (he : '=' ∉ param) (hp : param.head? ≠ some '%') (idx : List Nat) (t : Ty) (nm : Str)
    (h : structParam param args 0 = .ok (idx, t, nm)) :
    ∃ q own pm, parseTag args ("/{".toList ++ param ++ "}".toList) [] = .ok q ∧ q.list = own ++ [pm] ∧
      own.length = args.length ∧ pm.name = param ∧ pm.ty = some t ∧ pm.loc = .at true false ∧
      q.heap.read pm.index = idx := by
  have hno : '?' ∉ "/{".toList ++ param ++ "}".toList := by simp [hq]
  unfold parseTag
  simp only [cut_none _ _ hno]
  have hbr : braced ("/{".toList ++ param ++ "}".toList) = some [param] := by
    have e : "/{".toList ++ param ++ "}".toList = '/' :: '{' :: (param ++ ['}']) := by simp
    rw [e, braced]
    have hs : split '{' ('{' :: (param ++ ['}'])) = [[], param ++ ['}']] := by
      rw [split, if_pos rfl, split_none _ _ (by simp [hb])]
    simp only [List.drop_succ_cons, List.drop_zero, hs, List.tail_cons]
    rw [if_pos (by simp [has])]
    rw [List.map_cons, cut_append _ _ _ hc]
    rfl
  have hpath : (newParser args).parsePath ("/{".toList ++ param ++ "}".toList) args =
      (newParser args).parseParams [param] args (.at true false) := by
    have e : "/{".toList ++ param ++ "}".toList = '/' :: '{' :: (param ++ ['}']) := by simp
    rw [e] at hbr ⊢
    rw [Parser.parsePath]
    simp only [ne_eq, not_true, if_false, hbr]
    rw [if_pos (by simp [has])]
  rw [hpath, Parser.parseParams, Parser.parseParam, if_neg (by
    rintro (h | h)
    · exact he ((has_iff _ _).mp h)
    · exact hp h)]
  simp only [Parser.addStruct, h, R.bind, Parser.parseParams, Parser.parseQuery, Bool.false_eq_true, if_false, Parser.parseBody]
  obtain ⟨list, h', e, hlen, hge, hread, hpm⟩ := bodyParams_spec args []
    ((newParser args).list ++ [{ name := param, ty := some t, loc := Loc.body.or (.at true false), index := ((newParser args).heap.lit idx).2 }])
    0 [] ((newParser args).heap.lit idx).1
    (by
      intro j q hj hb
      rcases Nat.lt_or_ge j args.length with h | h
      · omega
      · rw [List.getElem?_append_right (by simp [newParser, h])] at hj
        have := List.mem_of_getElem? hj
        simp at this
        subst this
        simp [Loc.body, Loc.or] at hb)
    (Or.inl rfl)
  rw [e]
  have hll : list.length = args.length + 1 := by rw [hlen]; simp [newParser]
  obtain ⟨q', a1, a2, _⟩ := hpm args.length
    { name := param, ty := some t, loc := Loc.body.or (.at true false), index := ((newParser args).heap.lit idx).2 }
    (by rw [List.getElem?_append_right (by simp [newParser])]; simp [newParser])
  have a2 := a2 (by simp [Loc.body, Loc.or])
  refine ⟨_, list.take args.length, q', rfl, ?_, ?_, ?_, ?_, ?_, ?_⟩
  · simp only
    have : list = list.take (args.length + 1) := by rw [List.take_of_length_le (by omega)]
    conv_lhs => rw [this, List.take_add_one, a1]
    rfl
  · rw [List.length_take]; omega
  · rw [a2]
  · rw [a2]
  · rw [a2]; rfl
  · simp only
    rw [a2, hread _ (by simp [Heap.lit])]
    exact read_lit _ _

/-- C66: a parameter that gives the names of fields, to any depth, stands for that field of
the only struct argument, wherever that argument is. -/
theorem names_field_partial (args : List Ty) (i : Nat) (arg : Ty) (fs : Fields)
    (ha : args[i]? = some arg) (hfs : fieldsOf arg = some fs)
    (honly : ∀ j t, args[j]? = some t → j ≠ i → fieldsOf t = none)
    (ns : List (List Char)) (path : List Nat) (t : Ty) (hns : ∀ n ∈ ns, CleanField n)
    (h : NamePath fs ns path t) :
    NamesField (parseTag args ("/{".toList ++ dots ns ++ "}".toList) []) args.length (dots ns) i path t := by
  obtain ⟨b, hstrip⟩ := strip_fields arg fs hfs
  obtain ⟨hlt, hget⟩ := List.getElem?_eq_some_iff.mp ha
  have hne : ns ≠ [] := by cases h <;> simp
  have hsp : structParam (dots ns) args 0 = .ok (i :: path, t, dots ns) := by
    have e : args = args.take i ++ arg :: args.drop (i + 1) := by
      rw [← hget]; simp
    rw [e, structParam_skip (dots ns) arg _ (args.take i) 0 (by
      intro x hx
      obtain ⟨j, hj, rfl⟩ := List.getElem_of_mem hx
      rw [List.length_take] at hj
      exact honly j _ (by rw [List.getElem_take]; exact List.getElem?_eq_getElem (by omega)) (by omega))]
    rw [structParam]
    simp only [hstrip, split_dots ns hne (fun n hn => (hns n hn).2), follow_of h b [], R.bind, if_true]
    rw [List.length_take, Nat.min_eq_left (by omega)]
    simp
  have hhead : (dots ns).head? ≠ some '%' := by
    match ns, hns, hne with
    | [x], hns, _ => exact (hns x (by simp)).1.2.1
    | x :: y :: xs, hns, _ =>
      have h1 := (hns x (by simp)).1
      obtain ⟨c, cs, hx⟩ := List.exists_cons_of_ne_nil h1.1
      have := h1.2.1
      rw [hx] at this
      simp only [dots, hx]
      simpa using this
  exact parse_braced args (dots ns)
    (dots_plain _ (by decide) ns (fun n hn => (hns n hn).1.2.2.2.1))
    (dots_plain _ (by decide) ns (fun n hn => (hns n hn).1.2.2.2.2.1))
    (dots_plain _ (by decide) ns (fun n hn => (hns n hn).1.2.2.2.2.2.1))
    (dots_plain _ (by decide) ns (fun n hn => (hns n hn).1.2.2.1)) hhead _ _ _ hsp

/-- A parameter that gives a field's `rest` tag, where no field has that name, reads not the
argument but the position of the field, twice. -/
theorem tagged_field_reads (args : List Ty) (i : Nat) (arg : Ty) (fs : Fields)
    (ha : args[i]? = some arg) (hfs : fieldsOf arg = some fs)
    (honly : ∀ j t, args[j]? = some t → j ≠ i → fieldsOf t = none)
    (k : Nat) (f : FieldInfo) (t : Ty) (hk : fieldAt fs k = some (f, t)) (hc : CleanField f.restTag)
    (huniq : ∀ j f' t', fieldAt fs j = some (f', t') → f'.name ≠ f.restTag ∧ f'.jsonTag ≠ f.restTag ∧
        (f'.restTag = f.restTag → j = k)) :
    NamesField (parseTag args ("/{".toList ++ f.restTag ++ "}".toList) []) args.length f.restTag k [k] t := by
  obtain ⟨b, hstrip⟩ := strip_fields arg fs hfs
  obtain ⟨hlt, hget⟩ := List.getElem?_eq_some_iff.mp ha
  have hsp : structParam f.restTag args 0 = .ok ([k, k], t, f.restTag) := by
    have e : args = args.take i ++ arg :: args.drop (i + 1) := by
      rw [← hget]; simp
    rw [e, structParam_skip f.restTag arg _ (args.take i) 0 (by
      intro x hx
      obtain ⟨j, hj, rfl⟩ := List.getElem_of_mem hx
      rw [List.length_take] at hj
      exact honly j _ (by rw [List.getElem_take]; exact List.getElem?_eq_getElem (by omega)) (by omega))]
    rw [structParam]
    simp only [hstrip, split_none _ _ hc.2, follow, byName_none fs f.restTag 0 (fun j f' t' hj => (huniq j f' t' hj).1),
      R.bind, byTag_of fs f.restTag 0 k f t hk rfl (fun j f' t' hj => (huniq j f' t' hj).2)]
    simp
  exact parse_braced args f.restTag hc.1.2.2.2.1 hc.1.2.2.2.2.1 hc.1.2.2.2.2.2.1 hc.1.2.2.1 hc.1.2.1 _ _ _ hsp

private def tagged : Fields :=
  .cons (mk "A") (.scalar false) (.cons { name := "B".toList, restTag := "b".toList } (.scalar true) .nil)

private theorem tagged_uniq : ∀ j f' t', fieldAt tagged j = some (f', t') →
    f'.name ≠ "b".toList ∧ f'.jsonTag ≠ "b".toList ∧ (f'.restTag = "b".toList → j = 1) := by
  intro j f' t' h
  match j with
  | 0 => simp [tagged, fieldAt] at h; rw [← h.1]; decide
  | 1 => simp [tagged, fieldAt] at h; rw [← h.1]; decide
  | j + 2 => simp [tagged, fieldAt] at h

/-- C66 fails: with `struct{ A T; B T \`rest:"b"\` }` as the only argument, `{b}` reads field 1 of
argument 1, which does not exist. -/
theorem names_field_fails : ¬ NamesFieldClaim := by
  intro h
  have hb : CleanField "b".toList := ⟨by simp [CleanName], by decide⟩
  have honly : ∀ (j : Nat) t, [Ty.struct false tagged][j]? = some t → j ≠ 0 → fieldsOf t = none := by
    intro j t hj hne
    cases j with
    | zero => exact absurd rfl hne
    | succ j => simp at hj
  obtain ⟨q, own, pm, h1, h2, _, _, _, _, h7⟩ := (h [.struct false tagged] 0 _ tagged rfl rfl honly).2 1
    { name := "B".toList, restTag := "b".toList } (.scalar true) rfl hb tagged_uniq
  obtain ⟨q', own', pm', k1, k2, _, _, _, _, k7⟩ := tagged_field_reads [.struct false tagged] 0 _ tagged rfl rfl honly 1
    { name := "B".toList, restTag := "b".toList } (.scalar true) rfl hb tagged_uniq
  rw [h1] at k1
  injection k1 with k1; subst k1
  rw [h2] at k2
  have := List.append_inj_right' k2 rfl
  simp at this; subst this
  rw [h7] at k7
  simp at k7

/-- A parameter with dots crashes the process when a field on the way is a pointer to a struct
or no struct at all. -/
theorem names_field_panics :
    (parseTag [.struct false (.cons (mk "A") (.ptr (.struct false (.cons (mk "X") (.scalar false) .nil))) .nil)]
      "/{A.X}".toList [] matches .panic) = true ∧
    (parseTag [.struct false (.cons (mk "A") (.scalar false) .nil)] "/{A.X}".toList [] matches .panic) = true := by
  constructor <;> decide

/-- `/{A.B}` on a scalar and a pointer to a struct of a struct. -/
example : NamesField (parseTag [.scalar false, .ptr (.struct false (.cons (mk "A") (.struct false
      (.cons (mk "Z") (.scalar false) (.cons (mk "B") (.scalar true) .nil))) .nil))] "/{A.B}".toList [])
    2 "A.B".toList 1 [0, 1] (.scalar true) := by
  refine names_field_partial _ 1 _ _ rfl rfl ?_ ["A".toList, "B".toList] [0, 1] (.scalar true) ?_ ?_
  · intro j t hj hne
    match j with
    | 0 => simp at hj; subst hj; rfl
    | 1 => exact absurd rfl hne
    | j + 2 => simp at hj
  · intro n hn
    have : n = "A".toList ∨ n = "B".toList := by simpa using hn
    rcases this with rfl | rfl <;> exact ⟨by simp [CleanName], by decide⟩
  · refine .down (f := mk "A") rfl rfl ?_ (.here (f := mk "B") rfl rfl ?_)
    · intro j f' t' h _
      match j with
      | 0 => rfl
      | j + 1 => simp [fieldAt] at h
    · intro j f' t' h hn
      match j with
      | 0 => simp [fieldAt] at h; rw [← h.1] at hn; revert hn; decide
      | 1 => rfl
      | j + 2 => simp [fieldAt] at h

end Verif.Rest
