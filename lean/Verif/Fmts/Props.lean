import Verif.Fmts.Lemmas
/-!
# Properties of format linking
-/
namespace Verif.Fmts

/-! ## Specification -/

/-- A format with at least one `%v`: what is before the first, the texts between them, and what is after the last. -/
structure Format where
  lead : Str
  seps : List Str
  last : Str

/-- The tag after the first `%v`. -/
def tagRest : List Str → Str → Str
  | [], last => last
  | c :: cs, last => c ++ '%' :: 'v' :: tagRest cs last

/-- The tag as it is written. -/
def Format.tag (f : Format) : Str := f.lead ++ '%' :: 'v' :: tagRest f.seps f.last

/-- The text after the first argument. -/
def printRest : List (Str × Str) → Str → Str
  | [], last => last
  | (c, a) :: rest, last => c ++ (a ++ printRest rest last)

/-- The text that `fmt.Sprintf` gives for string arguments, of which the first is `a` and the others come with the separator
before them. -/
def printed (lead : Str) (a : Str) (rest : List (Str × Str)) (last : Str) : Str := lead ++ a ++ printRest rest last

/-- No character is in both. -/
def Apart (x y : Str) : Prop := ∀ c ∈ x, c ∉ y

/-- There is something between any two arguments, and its characters are nowhere but between arguments: different
separators have no character in common. -/
def Clean (lead a : Str) (rest : List (Str × Str)) (last : Str) : Prop :=
  ∀ c ∈ rest.map Prod.fst, c ≠ [] ∧ Apart c lead ∧ Apart c a ∧ Apart c last ∧ (∀ p ∈ rest, Apart c p.2) ∧
    ∀ p ∈ rest, p.1 = c ∨ Apart c p.1

/-- The literal parts of the format have no `%`. -/
def NoPercent (lead : Str) (seps : List Str) (last : Str) : Prop := '%' ∉ lead ∧ (∀ c ∈ seps, '%' ∉ c) ∧ '%' ∉ last

/-- The score of a value that has everything the format asks for: one point for what is before the first argument, one for
what is after the last, one for each different separator. -/
def fullScore (lead : Str) (seps : List Str) (last : Str) : Nat :=
  (if lead = [] then 0 else 1) + (if last = [] then 0 else 1) + seps.dedup.length

/-! ## C156: the parser that is chosen -/

/-- `Parser` chooses the candidate with the highest score if no other has that score, and nil otherwise. -/
theorem choose_spec (cs : List Candidate) (value : Str) (i : Nat) :
    choose cs value = some i ↔
      ∃ c, cs[i]? = some c ∧ ∀ j c', cs[j]? = some c' → j ≠ i → rank c' value < rank c value := by
  have hinv := inv_loop (cs.map (rank · value)) [] {} (Or.inl ⟨rfl, rfl⟩)
  simp only [List.nil_append, List.length_nil] at hinv
  unfold choose
  dsimp only
  generalize Best.loop {} 0 (cs.map (rank · value)) = b at hinv
  obtain ⟨hb, mb, sb⟩ := b
  rcases hinv with ⟨hnil, hn⟩ | ⟨h, hh, hm, hmax, h1, h2⟩
  · simp only at hn
    subst hn
    have : cs = [] := by simpa using hnil
    subst this
    simp
  · simp only at hh hm h1 h2
    subst hh
    simp only
    rw [List.getElem?_map, Option.map_eq_some_iff] at hm
    obtain ⟨cm, hcm, hrank⟩ := hm
    by_cases hs : sb > 0
    · simp only [hs, if_true, reduceCtorEq, false_iff]
      rintro ⟨c, hc, hall⟩
      obtain ⟨j, hj, hjv⟩ := h1 hs
      rw [List.getElem?_map, Option.map_eq_some_iff] at hjv
      obtain ⟨cj, hcj, hrj⟩ := hjv
      have hle : rank c value ≤ h := hmax _ (List.mem_map.2 ⟨c, List.mem_of_getElem? hc, rfl⟩)
      by_cases hji : j = i
      · subst hji
        have := hall mb cm hcm (fun e => hj e.symm)
        omega
      · have := hall j cj hcj hji
        omega
    · simp only [hs, if_false, Option.some.injEq]
      constructor
      · rintro rfl
        refine ⟨cm, hcm, ?_⟩
        intro j c' hc' hne
        have hle : rank c' value ≤ h := hmax _ (List.mem_map.2 ⟨c', List.mem_of_getElem? hc', rfl⟩)
        rcases Nat.lt_or_eq_of_le hle with h' | h'
        · omega
        · exfalso
          apply hne
          exact h2 (by omega) j (by rw [List.getElem?_map, hc']; simpa using h')
      · rintro ⟨c, hc, hall⟩
        by_contra hne
        have := hall mb cm hcm hne
        have hle : rank c value ≤ h := hmax _ (List.mem_map.2 ⟨c, List.mem_of_getElem? hc, rfl⟩)
        omega

/-- The formats of the test of the package: `a:b` is parsed as a pair. -/
example : choose [candidateOf "%v".toList, candidateOf "%v:%v".toList, candidateOf "%v/%v/%v/%v".toList] "a:b".toList = some 1 := by
  decide +kernel

private theorem split_cons (c : Char) (s : Str) (h : c ≠ '%') :
    split (c :: s) = match split s with | [] => [[c]] | p :: ps => (c :: p) :: ps := by
  rw [split.eq_def]
  split
  · rename_i heq; simp at heq
  · rename_i heq; simp only [List.cons.injEq] at heq; exact absurd heq.1 h
  · rename_i heq; simp only [List.cons.injEq] at heq; obtain ⟨rfl, rfl⟩ := heq; rfl

private theorem split_plain (s : Str) (h : '%' ∉ s) : split s = [s] := by
  induction s with
  | nil => rfl
  | cons c s ih =>
    simp only [List.mem_cons, not_or] at h
    rw [split_cons c s (fun e => h.1 e.symm), ih h.2]

private theorem split_text (c s : Str) (h : '%' ∉ c) : split (c ++ '%' :: 'v' :: s) = c :: split s := by
  induction c with
  | nil => rfl
  | cons d c ih =>
    simp only [List.mem_cons, not_or] at h
    rw [List.cons_append, split_cons d _ (fun e => h.1 e.symm), ih h.2]

private theorem split_tagRest (seps : List Str) (last : Str) (h1 : ∀ c ∈ seps, '%' ∉ c) (h2 : '%' ∉ last) :
    split (tagRest seps last) = seps ++ [last] := by
  induction seps with
  | nil => exact split_plain last h2
  | cons c cs ih =>
    rw [tagRest, split_text c _ (h1 c List.mem_cons_self), ih (fun d hd => h1 d (List.mem_cons_of_mem _ hd))]
    rfl

private theorem cut_tag (lead s : Str) (h : '%' ∉ lead) : cut (lead ++ '%' :: 'v' :: s) = some (lead, s) := by
  induction lead with
  | nil => rfl
  | cons c l ih =>
    simp only [List.mem_cons, not_or] at h
    rw [List.cons_append, cut, ih h.2]
    · rfl
    · rintro s' rfl
      exact absurd rfl h.1

private theorem tagRest_append (seps : List Str) (last : Str) : tagRest seps last = tagRest seps [] ++ last := by
  induction seps with
  | nil => rfl
  | cons c cs ih => rw [tagRest, ih, tagRest]; simp

private theorem tagRest_last (seps : List Str) : tagRest seps [] = [] ∨ ∃ y, tagRest seps [] = y ++ ['v'] := by
  induction seps with
  | nil => exact Or.inl rfl
  | cons c cs ih =>
    right
    rw [tagRest]
    rcases ih with h | ⟨y, h⟩
    · rw [h]
      exact ⟨c ++ ['%'], by simp⟩
    · rw [h]
      exact ⟨c ++ '%' :: 'v' :: y, by simp⟩

private theorem suffix_tagRest (seps : List Str) (last : Str) (h : '%' ∉ last) (hne : last ≠ []) :
    hasSuffix (tagRest seps last) ['%', 'v'] = false := by
  rw [Bool.eq_false_iff]
  intro hs
  rw [hasSuffix_iff] at hs
  obtain ⟨x, hx⟩ := hs
  rw [tagRest_append] at hx
  obtain ⟨l, d, rfl⟩ : ∃ l d, last = l ++ [d] := ⟨_, _, (List.dropLast_append_getLast hne).symm⟩
  rw [← List.append_assoc, show x ++ ['%', 'v'] = (x ++ ['%']) ++ ['v'] by simp] at hx
  have hx' := List.append_inj_left' hx rfl
  rcases List.eq_nil_or_concat l with rfl | ⟨l', e, rfl⟩
  · rw [List.append_nil] at hx'
    rcases tagRest_last seps with h0 | ⟨y, h0⟩
    · rw [h0] at hx'
      simp at hx'
    · rw [h0] at hx'
      have := List.append_inj_right' hx' rfl
      simp at this
  · rw [List.concat_eq_append, ← List.append_assoc] at hx'
    have := List.append_inj_right' hx' rfl
    simp only [List.cons.injEq, and_true] at this
    subst this
    simp at h

private theorem countFrom_apart (key x s : Str) (hne : key ≠ []) (h : Apart key x) :
    countFrom key 0 (x ++ s) = countFrom key 0 s := by
  induction x with
  | nil => rfl
  | cons c x ih =>
    obtain ⟨k, ks, rfl⟩ := List.exists_cons_of_ne_nil hne
    have hk : c ≠ k := fun e => h k List.mem_cons_self (by rw [e]; exact List.mem_cons_self)
    rw [List.cons_append, countFrom, if_neg (by simp [hasPrefix, hk]), ih]
    intro d hd hx
    exact h d hd (List.mem_cons_of_mem _ hx)

private theorem countFrom_skip (key x s : Str) : countFrom key x.length (x ++ s) = countFrom key 0 s := by
  induction x with
  | nil => rfl
  | cons c x ih => rw [List.cons_append, List.length_cons, countFrom, ih]

private theorem countFrom_key (key s : Str) (hne : key ≠ []) :
    countFrom key 0 (key ++ s) = countFrom key 0 s + 1 := by
  obtain ⟨k, ks, rfl⟩ := List.exists_cons_of_ne_nil hne
  have hp : hasPrefix (k :: (ks ++ s)) (k :: ks) = true := by
    rw [hasPrefix_iff]
    exact List.prefix_append (k :: ks) s
  rw [List.cons_append, countFrom, if_pos hp, List.length_cons, Nat.add_sub_cancel, countFrom_skip]

private theorem count_printRest (rest : List (Str × Str)) (last key : Str) (hne : key ≠ []) (h : Apart key last)
    (h2 : ∀ p ∈ rest, Apart key p.2) (h3 : ∀ p ∈ rest, p.1 = key ∨ Apart key p.1) :
    countFrom key 0 (printRest rest last) = (rest.map Prod.fst).count key := by
  induction rest with
  | nil =>
    have := countFrom_apart key last [] hne h
    rw [List.append_nil] at this
    rw [printRest, this]
    rfl
  | cons p rest ih =>
    obtain ⟨d, a⟩ := p
    have ih := ih (fun p hp => h2 p (List.mem_cons_of_mem _ hp)) (fun p hp => h3 p (List.mem_cons_of_mem _ hp))
    have ha : Apart key a := h2 (d, a) List.mem_cons_self
    rw [printRest, List.map_cons, List.count_cons, ← ih]
    rcases h3 (d, a) List.mem_cons_self with hd | hd
    · simp only at hd
      subst hd
      rw [countFrom_key _ _ hne, countFrom_apart _ _ _ hne ha]
      simp
    · simp only at hd
      have hdk : d ≠ key := by
        rintro rfl
        obtain ⟨k, ks, rfl⟩ := List.exists_cons_of_ne_nil hne
        exact hd k List.mem_cons_self List.mem_cons_self
      rw [countFrom_apart _ _ _ hne hd, countFrom_apart _ _ _ hne ha]
      simp [hdk]

private theorem printRest_suffix (rest : List (Str × Str)) (last : Str) : last <:+ printRest rest last := by
  induction rest with
  | nil => exact List.suffix_refl _
  | cons p rest ih =>
    obtain ⟨d, a⟩ := p
    rw [printRest]
    exact (ih.trans (List.suffix_append _ _)).trans (List.suffix_append _ _)

/-- What a format prints has the full score for that format. Missing: formats with
nothing between two arguments (`unseparated_fails`), and separators with characters that are also in an argument, in another
separator or at an end of the format (`recognised_fails`). -/
theorem recognised_partial (lead a : Str) (rest : List (Str × Str)) (last : Str)
    (hp : NoPercent lead (rest.map Prod.fst) last) (hc : Clean lead a rest last) :
    rank (candidateOf (Format.tag ⟨lead, rest.map Prod.fst, last⟩)) (printed lead a rest last) =
      fullScore lead (rest.map Prod.fst) last := by
  obtain ⟨hp1, hp2, hp3⟩ := hp
  have hcand : candidateOf (Format.tag ⟨lead, rest.map Prod.fst, last⟩) =
      { format := Format.tag ⟨lead, rest.map Prod.fst, last⟩, pre := lead, suf := last,
        search := (rest.map Prod.fst).foldl bump [] } := by
    have hcut : cutTag (Format.tag ⟨lead, rest.map Prod.fst, last⟩) = (lead, tagRest (rest.map Prod.fst) last) := by
      unfold cutTag Format.tag
      rw [cut_tag lead _ hp1]
    unfold candidateOf
    rw [hcut]
    unfold candidateFrom
    rw [split_tagRest _ _ hp2 hp3]
    congr 1
    · by_cases hl : last = []
      · subst hl; simp
      · simp [suffix_tagRest _ _ hp3 hl]
    · simp
  rw [hcand]
  have hsearch : ∀ p ∈ (rest.map Prod.fst).foldl bump [],
      count (printed lead a rest last) p.1 = p.2 := by
    rintro ⟨k, n⟩ hk
    obtain ⟨h0, hn⟩ := ((bump_all _).2 k n).1 hk
    have hmem : k ∈ rest.map Prod.fst := List.count_pos_iff.1 (by omega)
    obtain ⟨c0, c1, c2, c3, c4, c5⟩ := hc k hmem
    simp only
    rw [count, if_neg c0, printed, List.append_assoc, countFrom_apart _ _ _ c0 c1, countFrom_apart _ _ _ c0 c2,
      count_printRest rest last k c0 c3 c4 c5, hn]
  have hlen : ((rest.map Prod.fst).foldl bump []).length = (rest.map Prod.fst).dedup.length := by
    rw [bump_length]
  have hsuf : hasSuffix (printed lead a rest last) last = true := by
    rw [hasSuffix_iff, printed]
    exact (printRest_suffix rest last).trans (List.suffix_append _ _)
  have hpre : hasPrefix (printed lead a rest last) lead = true := by
    rw [hasPrefix_iff, printed, List.append_assoc]
    exact List.prefix_append _ _
  have hsufR : ∀ score, rankSuffix (⟨Format.tag ⟨lead, rest.map Prod.fst, last⟩, lead, last,
      (rest.map Prod.fst).foldl bump []⟩) (printed lead a rest last) score =
      score + (if last = [] then 0 else 1) + (rest.map Prod.fst).dedup.length := by
    intro score
    rw [rankSuffix]
    by_cases hl : last = []
    · rw [if_neg (by simpa using hl), if_pos hl, rankSearch_all _ _ _ hsearch, hlen]; omega
    · simp only [hl, ne_eq, not_false_eq_true, if_true, hsuf, if_false]
      rw [rankSearch_all _ _ _ hsearch, hlen]
  rw [rank, fullScore]
  by_cases hl : lead = []
  · rw [if_neg (by simpa using hl), if_pos hl, hsufR]
  · simp only [hl, ne_eq, not_false_eq_true, if_true, hpre, if_false]
    rw [hsufR]

/-- So what a format prints is parsed by the parser of that format, if it scores less for all others. -/
theorem parser_of_format_partial (cs : List Candidate) (i : Nat) (lead a : Str) (rest : List (Str × Str)) (last : Str)
    (hp : NoPercent lead (rest.map Prod.fst) last) (hc : Clean lead a rest last)
    (hi : cs[i]? = some (candidateOf (Format.tag ⟨lead, rest.map Prod.fst, last⟩)))
    (hothers : ∀ j c, cs[j]? = some c → j ≠ i →
      rank c (printed lead a rest last) < fullScore lead (rest.map Prod.fst) last) :
    choose cs (printed lead a rest last) = some i := by
  rw [choose_spec]
  refine ⟨_, hi, ?_⟩
  intro j c hj hne
  rw [recognised_partial lead a rest last hp hc]
  exact hothers j c hj hne

/-- `<a - b, c - >` printed with `<%v - %v, %v - %v>`: the hypotheses hold. -/
example : NoPercent "<".toList [" - ".toList, ",".toList, " - ".toList] ">".toList ∧
    Clean "<".toList "a".toList [(" - ".toList, "b".toList), (",".toList, "c".toList), (" - ".toList, [])] ">".toList ∧
    Format.tag ⟨"<".toList, [" - ".toList, ",".toList, " - ".toList], ">".toList⟩ = "<%v - %v,%v - %v>".toList ∧
    choose [candidateOf "%v - %v".toList, candidateOf "<%v - %v,%v - %v>".toList] "<a - b,c - >".toList = some 1 := by
  refine ⟨⟨by decide +kernel, by decide +kernel, by decide +kernel⟩, ?_, by decide +kernel, by decide +kernel⟩
  unfold Clean Apart
  decide +kernel

/-- A format with nothing between two arguments does not recognise what it prints, unless that is empty but for what
is at the ends. -/
theorem unseparated_fails (a b : Str) (h : a ++ b ≠ []) : rank (candidateOf "%v%v".toList) (a ++ b) = 0 := by
  have hc : candidateOf "%v%v".toList = ⟨"%v%v".toList, [], [], [([], 1)]⟩ := by decide +kernel
  have hn : count (a ++ b) [] ≠ 1 := by
    rw [count, if_pos rfl]
    have := List.length_pos_iff.2 h
    omega
  rw [hc]
  simp [rank, rankSuffix, rankSearch, hn]

/-- A value that a format printed can score nothing for it: when the separator is also at the end of the format. -/
theorem recognised_fails : ∃ (tag value : Str), tag = "%v,%v,".toList ∧ value = "a,b,".toList ∧ rank (candidateOf tag) value = 0 :=
  ⟨_, _, rfl, rfl, by decide +kernel⟩

/-- A value that only the format `%v` prints has no parser if there is any other format with a part that it lacks: both
score nothing. -/
theorem parser_default_fails (other : Candidate) (value : Str) (h : rank other value = 0) :
    choose [candidateOf "%v".toList, other] value = none := by
  have h0 : rank (candidateOf "%v".toList) value = 0 := by
    have : candidateOf "%v".toList = ⟨"%v".toList, [], [], []⟩ := by decide +kernel
    rw [this]; rfl
  rw [Option.eq_none_iff_forall_ne_some]
  intro i hi
  rw [choose_spec] at hi
  obtain ⟨c, hc, hall⟩ := hi
  match i, hc with
  | 0, hc =>
    simp only [List.getElem?_cons_zero, Option.some.injEq] at hc
    subst hc
    have := hall 1 other rfl (by decide)
    omega
  | 1, hc =>
    simp only [List.getElem?_cons_succ, List.getElem?_cons_zero, Option.some.injEq] at hc
    subst hc
    have := hall 0 _ rfl (by decide)
    omega
  | i + 2, hc => simp at hc

example : rank (candidateOf "%v:%v".toList) "hello".toList = 0 := by decide +kernel

/-- A single format is chosen for every value, also one that it does not match. -/
theorem parser_single_fails (c : Candidate) (value : Str) : choose [c] value = some 0 := by
  rw [choose_spec]
  refine ⟨c, rfl, ?_⟩
  intro j c' hj hne
  match j, hj with
  | 0, _ => exact absurd rfl hne
  | j + 1, hj => simp at hj

example : rank (candidateOf "%v:%v".toList) "no colon".toList = 0 := by decide +kernel

/-! ## C157: linking -/

/-- The functions of all namespaces with their implementations, in the same order. -/
inductive At : Struct → Impls → Fn → Impl → Prop
  | here (fns : List Fn) (subs : List Struct) (is : List Impl) (subIs : List Impls) (k : Nat) (f : Fn) (i : Impl) :
      fns[k]? = some f → is[k]? = some i → At (.mk fns subs) (.mk is subIs) f i
  | sub (fns : List Fn) (subs : List Struct) (is : List Impl) (subIs : List Impls) (k : Nat) (s : Struct) (si : Impls)
      (f : Fn) (i : Impl) : subs[k]? = some s → subIs[k]? = some si → At s si f i → At (.mk fns subs) (.mk is subIs) f i

/-- A function that prints: its only result is a string. -/
def Fn.Prints (f : Fn) : Prop := ∃ n, f.outs = [.str n]

/-- A function that parses: its only argument is a string, its last result an error. -/
def Fn.Parses (f : Fn) : Prop := (∃ n, f.ins = [.str n]) ∧ ∃ os o, f.outs = o :: os ++ [.err]

/-- A function that chooses a parser. -/
def Fn.Chooses (f : Fn) (n : Nat) : Prop := f.ins = [.str n] ∧ f.outs = [.any]

/-- A function that `Link` can do something with. -/
def Fn.Known (f : Fn) : Prop := f.Prints ∨ f.Parses ∨ ∃ n, f.Chooses n

/-- All functions of all namespaces. -/
inductive Occurs : Struct → Fn → Prop
  | here (fns : List Fn) (subs : List Struct) (f : Fn) : f ∈ fns → Occurs (.mk fns subs) f
  | sub (fns : List Fn) (subs : List Struct) (s : Struct) (f : Fn) : s ∈ subs → Occurs s f → Occurs (.mk fns subs) f

private theorem prints_link (f : Fn) (h : f.Prints) (formats : Nat → List Candidate) :
    f.link formats = .make (.print (f.tag.getD [])) := by
  obtain ⟨n, h⟩ := h
  obtain ⟨ins, outs, tag⟩ := f
  simp only at h
  subst h
  simp [Fn.link, Fn.numOut, Ty.isStr]

private theorem parses_link (f : Fn) (h : f.Parses) (formats : Nat → List Candidate) : f.link formats = .leave := by
  obtain ⟨-, os, o, h⟩ := h
  obtain ⟨ins, outs, tag⟩ := f
  simp only at h
  subst h
  have : (o :: os ++ [Ty.err]).getLast? = some .err := by rw [List.getLast?_append]; rfl
  rw [Fn.link, if_pos ⟨by simp, this⟩]

private theorem chooses_link (f : Fn) (n : Nat) (h : f.Chooses n) (formats : Nat → List Candidate) :
    f.link formats = .make (.choice (formats n)) := by
  obtain ⟨h1, h2⟩ := h
  obtain ⟨ins, outs, tag⟩ := f
  simp only at h1 h2
  subst h1; subst h2
  simp [Fn.link, Fn.strIn, Ty.strId]

private theorem isParser_iff (f : Fn) : f.isParser = true ↔ f.Parses ∧ f.outs ≠ [.any, .err, .err] := by
  obtain ⟨ins, outs, tag⟩ := f
  constructor
  · intro h
    simp only [Fn.isParser, Bool.and_eq_true, decide_eq_true_eq] at h
    obtain ⟨⟨⟨⟨h1, h2⟩, h3⟩, h4⟩, h5⟩ := h
    refine ⟨⟨?_, ?_⟩, ?_⟩
    · cases ins with
      | nil => simp at h3
      | cons a ins =>
        cases a with
        | str n =>
          refine ⟨n, ?_⟩
          simp only [Fn.numIn, List.head?_cons, Option.some.injEq, reduceCtorEq, if_false, List.length_cons] at h2
          have : ins = [] := List.eq_nil_of_length_eq_zero (by omega)
          rw [this]
        | any => simp [Ty.isStr] at h3
        | err => simp [Ty.isStr] at h3
        | ctx => simp [Ty.isStr] at h3
        | other n => simp [Ty.isStr] at h3
    · rcases List.eq_nil_or_concat outs with rfl | ⟨os, o, rfl⟩
      · simp at h5
      · rw [List.concat_eq_append] at h4 h5 ⊢
        simp only [List.getLast?_append, List.getLast?_singleton, Option.some_or, Option.some.injEq] at h5
        subst h5
        cases os with
        | nil => simp at h4
        | cons p os => exact ⟨os, p, rfl⟩
    · intro he
      simp only at he
      subst he
      simp [Fn.numOut] at h1
  · rintro ⟨⟨⟨n, hi⟩, os, o, ho⟩, hany⟩
    simp only at hi ho hany
    subst hi; subst ho
    have hl : (o :: os ++ [Ty.err]).getLast? = some .err := by rw [List.getLast?_append]; rfl
    simp only [Fn.isParser, Fn.numIn, Fn.numOut, hl]
    match os with
    | [] => simp [Ty.isStr]
    | [p] =>
      have : ¬ (o = .any ∧ p = .err) := by rintro ⟨rfl, rfl⟩; exact hany rfl
      simp [Ty.isStr]
      by_contra hc; simp only [not_or, not_not] at hc; exact this hc
    | p :: q :: os => simp [Ty.isStr]

/-- The candidates that `fill` collects are those of the parsers of all namespaces. -/
private theorem mem_fill (n : Nat) (s : Struct) : ∀ c, c ∈ fill n s ↔
    ∃ f t, Occurs s f ∧ f.Parses ∧ f.outs ≠ [.any, .err, .err] ∧ f.ins = [.str n] ∧ f.tag = some t ∧ c = candidateOf t := by
  induction s using Struct.rec (motive_2 := fun subs => ∀ c, c ∈ fillAll n subs ↔
    ∃ f t, (∃ s ∈ subs, Occurs s f) ∧ f.Parses ∧ f.outs ≠ [.any, .err, .err] ∧ f.ins = [.str n] ∧ f.tag = some t ∧
      c = candidateOf t) with
  | mk fns subs ih =>
    intro c
    rw [fill, List.mem_append, ih]
    have hstr : ∀ f : Fn, f.Parses → (f.strIn = some n ↔ f.ins = [.str n]) := by
      rintro ⟨ins, outs, tag⟩ ⟨⟨m, hm⟩, -⟩
      simp only at hm
      subst hm
      simp [Fn.strIn, Ty.strId]
    constructor
    · rintro (h | ⟨f, t, ⟨s, hs, ho⟩, rest⟩)
      · obtain ⟨f, hf, hc⟩ := List.mem_filterMap.1 h
        split at hc
        · rename_i hp
          obtain ⟨hp1, hp2⟩ := (isParser_iff f).1 hp.1
          rw [Option.map_eq_some_iff] at hc
          obtain ⟨t, ht, rfl⟩ := hc
          exact ⟨f, t, .here _ _ _ hf, hp1, hp2, (hstr f hp1).1 hp.2, ht, rfl⟩
        · simp at hc
      · exact ⟨f, t, .sub _ _ s _ hs ho, rest⟩
    · rintro ⟨f, t, ho, h1, h2, h3, h4, rfl⟩
      cases ho with
      | here _ _ _ hf =>
        left
        refine List.mem_filterMap.2 ⟨f, hf, ?_⟩
        rw [if_pos ⟨(isParser_iff f).2 ⟨h1, h2⟩, (hstr f h1).2 h3⟩, h4]
        rfl
      | sub _ _ s _ hs ho => exact Or.inr ⟨f, t, ⟨s, hs, ho⟩, h1, h2, h3, h4, rfl⟩
  | nil => simp [fillAll]
  | cons s ss h1 h2 =>
    rename_i c
    rw [fillAll, List.mem_append, h1, h2]
    constructor
    · rintro (⟨f, t, ho, rest⟩ | ⟨f, t, ⟨x, hx, ho⟩, rest⟩)
      · exact ⟨f, t, ⟨s, List.mem_cons_self, ho⟩, rest⟩
      · exact ⟨f, t, ⟨x, List.mem_cons_of_mem _ hx, ho⟩, rest⟩
    · rintro ⟨f, t, ⟨x, hx, ho⟩, rest⟩
      rcases List.mem_cons.1 hx with rfl | hx
      · exact Or.inl ⟨f, t, ho, rest⟩
      · exact Or.inr ⟨f, t, ⟨x, hx, ho⟩, rest⟩

private theorem linkFns_known (formats : Nat → List Candidate) (before : Fn → Impl) (fns : List Fn)
    (h : ∀ f ∈ fns, f.Known) :
    linkFns formats before fns = (fns.map fun f => match f.link formats with | .make i => i | _ => before f, true) := by
  induction fns with
  | nil => rfl
  | cons f fns ih =>
    have ih := ih (fun g hg => h g (List.mem_cons_of_mem _ hg))
    rw [linkFns, ih]
    rcases h f List.mem_cons_self with hf | hf | ⟨n, hf⟩
    · simp [prints_link f hf]
    · simp [parses_link f hf]
    · simp [chooses_link f n hf]

/-- The implementation of a function after `Link`, given the candidates for its namespace. -/
private def final (formats : Nat → List Candidate) (f : Fn) : Impl :=
  match f.link formats with | .make i => i | _ => f.filled

private theorem at_linkSub (s : Struct) : ∀ f i, At s (linkSub Fn.filled s) f i → (∀ g, Occurs s g → g.Known) →
    i = final (fun _ => []) f := by
  induction s using Struct.rec (motive_2 := fun subs => ∀ s ∈ subs, ∀ f i, At s (linkSub Fn.filled s) f i →
    (∀ g, Occurs s g → g.Known) → i = final (fun _ => []) f) with
  | mk fns subs ih =>
    intro f i hat hk
    rw [linkSub, linkFns_known _ _ _ (fun g hg => hk g (.here _ _ _ hg))] at hat
    simp only [if_true] at hat
    cases hat with
    | here _ _ _ _ k _ _ h1 h2 =>
      rw [List.getElem?_map, h1] at h2
      simp only [Option.map_some, Option.some.injEq] at h2
      exact h2.symm
    | sub _ _ _ _ k s si _ _ h1 h2 h3 =>
      have hs : s ∈ subs := List.mem_of_getElem? h1
      have : si = linkSub Fn.filled s := by
        clear ih h3 hk
        induction subs generalizing k with
        | nil => simp at h1
        | cons x xs ihx =>
          rw [linkSubs] at h2
          cases k with
          | zero =>
            simp only [List.getElem?_cons_zero, Option.some.injEq] at h1 h2
            rw [← h1, h2]
          | succ k =>
            simp only [List.getElem?_cons_succ] at h1 h2
            exact ihx k h1 h2 (List.mem_of_getElem? h1)
      subst this
      exact ih s hs f i h3 (fun g hg => hk g (.sub _ _ _ _ hs hg))
  | nil => rename_i s hs _ _ _ _; exact absurd hs (by simp)
  | cons s ss h1 h2 =>
    rename_i x hx f i hat hk
    rcases List.mem_cons.1 hx with rfl | hx
    · exact h1 f i hat hk
    · exact h2 x hx f i hat hk

/-- If every function is one that prints, one that parses or one that chooses, `Link` returns nil and implements all of them:
those that print by `sprintf` with their tag, those that parse by `sscanf` with theirs, in all namespaces. -/
theorem link_complete (s : Struct) (hk : ∀ g, Occurs s g → g.Known) :
    (link s).2 = true ∧ ∀ f i, At s (link s).1 f i →
      (f.Prints → i = .print (f.tag.getD [])) ∧
      (f.Parses → f.outs ≠ [.any, .err, .err] → i = .scan (f.tag.getD [])) := by
  obtain ⟨fns, subs⟩ := s
  have hfin : ∀ formats f, (f.Prints → final formats f = .print (f.tag.getD [])) ∧
      (f.Parses → f.outs ≠ [.any, .err, .err] → final formats f = .scan (f.tag.getD [])) := by
    intro formats f
    refine ⟨fun h => by simp [final, prints_link f h], fun h hany => ?_⟩
    have hp : f.isParser = true := (isParser_iff f).2 ⟨h, hany⟩
    simp only [final, parses_link f h, Fn.filled, hp, if_true]
  have hlink : link (.mk fns subs) = (.mk (fns.map (final (fun ty => fill ty (.mk fns subs)))) (linkSubs Fn.filled subs), true) := by
    rw [link, linkFns_known _ _ _ (fun g hg => hk g (.here _ _ _ hg))]
    rfl
  rw [hlink]
  refine ⟨rfl, ?_⟩
  intro f i hat
  cases hat with
  | here _ _ _ _ k _ _ h1 h2 =>
    rw [List.getElem?_map, h1] at h2
    simp only [Option.map_some, Option.some.injEq] at h2
    subst h2
    exact hfin _ f
  | sub _ _ _ _ k s si _ _ h1 h2 h3 =>
    have hs : s ∈ subs := List.mem_of_getElem? h1
    have : si = linkSub Fn.filled s := by
      clear h3 hk hlink
      induction subs generalizing k with
      | nil => simp at h1
      | cons x xs ihx =>
        rw [linkSubs] at h2
        cases k with
        | zero =>
          simp only [List.getElem?_cons_zero, Option.some.injEq] at h1 h2
          rw [← h1, h2]
        | succ k =>
          simp only [List.getElem?_cons_succ] at h1 h2
          exact ihx k h1 h2 (List.mem_of_getElem? h1)
    subst this
    rw [at_linkSub s f i h3 (fun g hg => hk g (.sub _ _ _ _ hs hg))]
    exact hfin _ f

/-- A structure like that of the test of the package, with a namespace. -/
private def exStruct : Struct :=
  .mk [⟨[.str 0], [.any], none⟩, ⟨[.str 0, .str 0], [.str 0], some "%v:%v".toList⟩]
    [.mk [⟨[.str 0], [.str 0, .str 0, .err], some "%v:%v".toList⟩, ⟨[.str 0], [.any], none⟩] []]

example : At exStruct (link exStruct).1 ⟨[.str 0], [.str 0, .str 0, .err], some "%v:%v".toList⟩ (.scan "%v:%v".toList) :=
  .sub _ _ _ _ 0 _ _ _ _ rfl rfl (.here _ _ _ _ 0 _ _ rfl rfl)

/-- A function that chooses, at the top, has the parsers of all namespaces as candidates. -/
theorem link_choice_partial (fns : List Fn) (subs : List Struct) (hk : ∀ g, Occurs (.mk fns subs) g → g.Known) (k : Nat)
    (f : Fn) (hf : fns[k]? = some f) (n : Nat) (hc : f.Chooses n) :
    ∃ cs, At (.mk fns subs) (link (.mk fns subs)).1 f (.choice cs) ∧
      ∀ c, c ∈ cs ↔ ∃ g t, Occurs (.mk fns subs) g ∧ g.Parses ∧ g.outs ≠ [.any, .err, .err] ∧ g.ins = [.str n] ∧
        g.tag = some t ∧ c = candidateOf t := by
  have hlink : link (.mk fns subs) = (.mk (fns.map (final (fun ty => fill ty (.mk fns subs)))) (linkSubs Fn.filled subs), true) := by
    rw [link, linkFns_known _ _ _ (fun g hg => hk g (.here _ _ _ hg))]
    rfl
  refine ⟨fill n (.mk fns subs), ?_, mem_fill n (.mk fns subs)⟩
  rw [hlink]
  refine .here _ _ _ _ k f _ hf ?_
  rw [List.getElem?_map, hf]
  simp [final, chooses_link f n hc]

example : At exStruct (link exStruct).1 ⟨[.str 0], [.any], none⟩ (.choice [candidateOf "%v:%v".toList]) :=
  .here _ _ _ _ 0 _ _ rfl (by decide +kernel)

/-- In a namespace it has none, whatever the parsers beside it, so it never finds one. -/
theorem link_choice_fails (s : Struct) (fns : List Fn) (subs : List Struct) (hs : s ∈ subs)
    (hk : ∀ g, Occurs (.mk fns subs) g → g.Known) (f : Fn) (n : Nat) (hc : f.Chooses n) (i : Impl)
    (hat : At s (linkSub Fn.filled s) f i) : i = .choice [] ∧ ∀ value, choose [] value = none := by
  refine ⟨?_, fun value => rfl⟩
  rw [at_linkSub s f i hat (fun g hg => hk g (.sub _ _ _ _ hs hg))]
  simp [final, chooses_link f n hc]

example : At exStruct (link exStruct).1 ⟨[.str 0], [.any], none⟩ (.choice []) :=
  .sub _ _ _ _ 0 _ _ _ _ rfl rfl (.here _ _ _ _ 1 _ _ rfl rfl)

/-- A function that cannot be linked makes `Link` return an error at the top; in a namespace `Link` returns nil and leaves the
functions after it nil. -/
theorem link_error_fails :
    ∃ s, (link s).2 = true ∧ ∃ f, f.Prints ∧ Occurs s f ∧ At s (link s).1 f .nil := by
  refine ⟨.mk [] [.mk [⟨[], [.other 0], none⟩, ⟨[.str 0], [.str 0], some "%v".toList⟩] []], rfl,
    ⟨[.str 0], [.str 0], some "%v".toList⟩, ⟨0, rfl⟩, .sub _ _ _ _ List.mem_cons_self (.here _ _ _ (by simp)), ?_⟩
  exact .sub _ _ _ _ 0 _ _ _ _ rfl rfl (.here _ _ _ _ 1 _ _ rfl rfl)

/-- A function at the top which neither prints, nor chooses, nor returns something and then an error, makes `Link` return an
error, whatever the other functions; without one, `Link` returns nil. -/
theorem link_error_top (fns : List Fn) (subs : List Struct) :
    (link (.mk fns subs)).2 = false ↔
      ∃ f ∈ fns, ¬ f.Prints ∧ ¬ (∃ n, f.Chooses n) ∧ ¬ (∃ o os, f.outs = o :: os ++ [.err]) := by
  have key : ∀ (f : Fn) (formats : Nat → List Candidate),
      (f.link formats = .error ↔ ¬ f.Prints ∧ ¬ (∃ n, f.Chooses n) ∧ ¬ (∃ o os, f.outs = o :: os ++ [.err])) := by
    rintro ⟨ins, outs, tag⟩ formats
    have hlast : (outs.length > 1 ∧ outs.getLast? = some .err) ↔ ∃ o os, outs = o :: os ++ [.err] := by
      constructor
      · rintro ⟨h1, h2⟩
        obtain ⟨ys, rfl⟩ := List.getLast?_eq_some_iff.1 h2
        cases ys with
        | nil => simp at h1
        | cons o os => exact ⟨o, os, rfl⟩
      · rintro ⟨o, os, rfl⟩
        refine ⟨by simp, ?_⟩
        rw [List.getLast?_append]; rfl
    have hch : (outs.length = 1 ∧ outs[0]? = some .any ∧ ins.length = 1 ∧ (Fn.strIn ⟨ins, outs, tag⟩).isSome) ↔
        ∃ n, Fn.Chooses ⟨ins, outs, tag⟩ n := by
      constructor
      · rintro ⟨h1, h2, h3, h4⟩
        obtain ⟨o, rfl⟩ := List.length_eq_one_iff.1 h1
        obtain ⟨i, rfl⟩ := List.length_eq_one_iff.1 h3
        simp only [List.getElem?_cons_zero, Option.some.injEq] at h2
        subst h2
        cases i with
        | str n => exact ⟨n, rfl, rfl⟩
        | _ => simp [Fn.strIn, Ty.strId] at h4
      · rintro ⟨n, h1, h2⟩
        simp only at h1 h2
        subst h1; subst h2
        simp [Fn.strIn, Ty.strId]
    have hpr : ¬ (∃ o os, outs = o :: os ++ [Ty.err]) →
        ((Fn.numOut ⟨ins, outs, tag⟩ ≠ 1 ∨ (outs[0]?.map Ty.isStr).getD false = false) ↔
          ¬ Fn.Prints ⟨ins, outs, tag⟩) := by
      intro hno
      match outs with
      | [] => simp [Fn.numOut, Fn.Prints]
      | [o] => cases o <;> simp [Fn.numOut, Fn.Prints, Ty.isStr]
      | o :: p :: os =>
        have hl : (o :: p :: os).getLast? ≠ some .err := by
          intro h
          exact hno (hlast.1 ⟨by simp, h⟩)
        simp only [Fn.numOut, hl, if_false, Fn.Prints, List.length_cons]
        constructor
        · rintro - ⟨n, h⟩; cases h
        · intro _; left; omega
    unfold Fn.link
    by_cases h1 : ∃ o os, outs = o :: os ++ [Ty.err]
    · rw [if_pos (hlast.2 h1)]
      exact ⟨(by intro h; cases h), fun h => absurd h1 h.2.2⟩
    · rw [if_neg (fun h => h1 (hlast.1 h))]
      by_cases h2 : ∃ n, Fn.Chooses ⟨ins, outs, tag⟩ n
      · rw [if_pos (hch.2 h2)]
        exact ⟨(by intro h; cases h), fun h => absurd h2 h.2.1⟩
      · rw [if_neg (fun h => h2 (hch.1 h))]
        by_cases h3 : Fn.Prints ⟨ins, outs, tag⟩
        · rw [if_neg (fun h => (hpr h1).1 h h3)]
          exact ⟨(by intro h; cases h), fun h => absurd h3 h.1⟩
        · rw [if_pos ((hpr h1).2 h3)]
          exact ⟨fun _ => ⟨h3, h2, h1⟩, fun _ => rfl⟩
  have hfns : ∀ (formats : Nat → List Candidate) (fns : List Fn), (linkFns formats Fn.filled fns).2 = false ↔
      ∃ f ∈ fns, f.link formats = .error := by
    intro formats fns
    induction fns with
    | nil => simp [linkFns]
    | cons f fns ih =>
      cases hf : f.link formats <;> simp [linkFns, hf, ih]
  have : (link (.mk fns subs)).2 = (linkFns (fun ty => fill ty (.mk fns subs)) Fn.filled fns).2 := rfl
  rw [this, hfns]
  constructor
  · rintro ⟨f, hf, h⟩; exact ⟨f, hf, (key f _).1 h⟩
  · rintro ⟨f, hf, h⟩; exact ⟨f, hf, (key f _).2 h⟩

example : (link (.mk [⟨[.str 0], [.str 0], some "%v".toList⟩, ⟨[], [.other 0], none⟩] [])).2 = false :=
  (link_error_top _ _).2 ⟨_, List.mem_cons_of_mem _ List.mem_cons_self, (by rintro ⟨n, h⟩; cases h),
    (by rintro ⟨n, h, -⟩; cases h), (by rintro ⟨o, os, h⟩; cases os <;> cases h)⟩

/-- A function that prints and returns an error as well is left nil, and `Link` returns nil: for all such functions. -/
theorem link_print_error_fails (f : Fn) (a b : Ty) (ins : List Ty) (hi : f.ins = a :: b :: ins)
    (hc : a ≠ .ctx) (n : Nat) (ho : f.outs = [.str n, .err]) :
    (link (.mk [f] [])).2 = true ∧ At (.mk [f] []) (link (.mk [f] [])).1 f .nil := by
  have h1 : f.link (fun ty => fill ty (.mk [f] [])) = .leave := by simp [Fn.link, ho]
  have h2 : f.isParser = false := by
    simp [Fn.isParser, Fn.numIn, hi, hc]
  have : link (.mk [f] []) = (.mk [.nil] [], true) := by
    simp only [link, linkFns, h1, Fn.filled, h2]
    rfl
  rw [this]
  exact ⟨rfl, .here _ _ _ _ 0 _ _ rfl rfl⟩

end Verif.Fmts
