import Verif.Call.TagLemmas2

/-! # Properties of call tags (C96) -/

namespace Verif.Call

open Spec

/-- **C96** Every type that can be written down in the notation of call tags is read as the structure it
stands for, with the names of its symbols in order: types may nest to any depth. -/
theorem tag_round_trip (names : List (List Char)) (t : Ty) (hn : SymbolsValid names) (ht : t.Valid) :
    parseTag (tagText names t) = .ok (names, t.means) := by
  have hc := cutSpace_text (r := t.text) (commas_no_space names (fun s hs => (hn.2 s hs).2))
  have := type_text t ht (2 * t.text.length + 3) [] (by simp) (.inl rfl)
  rw [List.append_nil] at this
  rw [parseTag, tagText, hc]
  simp only [this, Res.andThen, splitComma_commas names hn.1 (fun s hs => (hn.2 s hs).1)]

/-- The tag of the test of the package: `fread func(&void[=@3],size_t*=@1,size_t,&FILE)size_t=@3; ferror(@4)`. -/
def fread : Ty :=
  .func none false
    (.cons (.simple ⟨some '&', false, "void".toList, some ⟨.capacity, false, .equal, .index 3⟩⟩)
    (.cons (.simple ⟨none, false, "size_t".toList, some ⟨.behind 0, false, .equal, .index 1⟩⟩)
    (.cons (.simple ⟨none, false, "size_t".toList, none⟩)
    (.cons (.simple ⟨some '&', false, "FILE".toList, none⟩) .nil))))
    (.fails ⟨none, false, "size_t".toList, none⟩ ⟨.value, false, .equal, .index 3⟩ "ferror".toList [.index 4])

theorem isName_of {s : List Char} (h : (match s with
    | c :: r => (c == '_' || c.isAlpha) && r.all fun d => d == '_' || d.isAlpha || d.isDigit
    | [] => false) = true) : IsName s := by
  cases s with
  | nil => simp at h
  | cons c r =>
    simp only [Bool.and_eq_true, Bool.or_eq_true, beq_iff_eq, List.all_eq_true] at h
    exact ⟨c, r, rfl, h.1, fun d hd => by
      rcases h.2 d hd with (h | h) | h
      · exact .inl h
      · exact .inr (.inl h)
      · exact .inr (.inr h)⟩

theorem fread_valid : fread.Valid := by
  simp only [fread, Ty.Valid, Tys.Valid, Ret.Valid, Simple.Valid, FreeValid]
  refine ⟨by simp, ⟨⟨by simp, isName_of (by decide), by decide, ?_⟩,
    ⟨by simp, isName_of (by decide), by decide, ?_⟩, ⟨by simp, isName_of (by decide), by decide, by simp⟩,
    ⟨by simp, isName_of (by decide), by decide, by simp⟩, trivial⟩,
    ⟨by simp, isName_of (by decide), by decide, ?_⟩, isName_of (by decide), ?_⟩
  · intro c hc; cases hc; simp [Arg.Valid]
  · intro c hc; cases hc; simp [Arg.Valid]
  · intro c hc; cases hc; simp [Arg.Valid]
  · intro a ha; simp only [List.mem_singleton] at ha; subst ha; simp [Arg.Valid]

/-- The hypotheses are met by the tag of the package's test, and its text is that of the test. -/
example : tagText ["fread".toList] fread =
    "fread func(&void[=@3],size_t*=@1,size_t,&FILE)size_t=@3; ferror(@4)".toList ∧
    parseTag (tagText ["fread".toList] fread) = .ok (["fread".toList], fread.means) :=
  ⟨by decide +kernel, tag_round_trip _ _ ⟨by simp, by decide⟩ fread_valid⟩

/-- **C96** Every text at all is read to the end or refused: reading a tag ends. -/
theorem tag_ends (tag : List Char) : parseTag tag ≠ .out := by
  rw [parseTag]
  split
  · simp
  · rename_i symbols stype _
    have := ((all_done (2 * stype.length + 3)).1 stype (by omega)).1
    cases h : parseType (2 * stype.length + 3) stype with
    | ok a => simp [Res.andThen]
    | err => simp [Res.andThen]
    | out => exact absurd h this

/-- Different types are never written the same way: a tag means one thing. -/
theorem tag_unambiguous (names names' : List (List Char)) (t t' : Ty) (hn : SymbolsValid names)
    (hn' : SymbolsValid names') (ht : t.Valid) (ht' : t'.Valid)
    (h : tagText names t = tagText names' t') : names = names' ∧ t.means = t'.means := by
  have h1 := tag_round_trip names t hn ht
  have h2 := tag_round_trip names' t' hn' ht'
  rw [h, h2] at h1
  simp only [Res.ok.injEq, Prod.mk.injEq] at h1
  exact ⟨h1.1.symm, h1.2.symm⟩

/-- **C96, violated**: what follows a complete type is not looked at. Any text after a comma or a closing
parenthesis is accepted, for every type. -/
theorem tag_garbage_fails (names : List (List Char)) (t : Ty) (hn : SymbolsValid names) (ht : t.Valid)
    (garbage : List Char) :
    parseTag (tagText names t ++ ')' :: garbage) = .ok (names, t.means) ∧
    parseTag (tagText names t ++ ',' :: garbage) = .ok (names, t.means) := by
  have key : ∀ r, Follows r → parseTag (tagText names t ++ r) = .ok (names, t.means) := by
    intro r hr
    have hc := cutSpace_text (r := t.text ++ r) (commas_no_space names (fun s hs => (hn.2 s hs).2))
    have := type_text t ht (2 * (t.text ++ r).length + 3) r (by omega) hr
    rw [parseTag, tagText, List.append_assoc, List.cons_append, hc]
    simp only [this, Res.andThen, splitComma_commas names hn.1 (fun s hs => (hn.2 s hs).1)]
  exact ⟨key _ (.inr (.inr rfl)), key _ (.inr (.inl rfl))⟩

/-! ## Documented notation that is refused -/

/-- Reading what follows a name, if it is refused. -/
theorem refused {name r : List Char} {f : Nat} (hn : IsName name) (hf : name ≠ "func".toList)
    (hr : EndsAt r) (h : ∀ hd : Head, hd.test.capacity = false → assertions hd r = .err) :
    parseType (f + 1) (name ++ r) = .err := by
  have := parseHead_text (free := none) (hash := false) (by intro c hc; cases hc) hn hr
  simp only [marks, Option.toList, List.nil_append, Bool.false_eq_true, if_false] at this
  rw [parseType, this]
  simp only [Res.andThen, hf, if_false]
  rw [h _ rfl]

/-- **C96, violated**: the documented `[@n]` (memory capacity) is refused after every name. -/
theorem documented_capacity_fails (name : List Char) (n f : Nat) (rest : List Char) (hn : IsName name)
    (hf : name ≠ "func".toList) :
    parseType (f + 1) (name ++ '[' :: '@' :: (Nat.toDigits 10 n ++ ']' :: rest)) = .err := by
  refine refused hn hf (endsAt_cons (by simp [Ends])) ?_
  intro hd hcap
  have hsd : scan (Nat.toDigits 10 n ++ ']' :: rest) = (.int (Nat.toDigits 10 n), ']' :: rest) :=
    scan_digits (numEnds_cons (by simp [Ends]) (by decide))
  simp only [assertions, peek, List.head?_cons, scan_own (show Own '[' by simp [Own])]
  simp only [show ('[' : Char) ≠ ',' by decide, show ('[' : Char) ≠ ')' by decide, or_self, if_false, if_true]
  simp only [inverting, inverted, peek, List.head?_cons, Option.some.injEq,
    show ('@' : Char) ≠ '!' by decide, if_false, assertion, scan_own own_at, argument, hsd]
  cases parseInt 64 (Nat.toDigits 10 n) <;> rfl

/-- **C96, violated**: the documented `*@n` (size of what is pointed to) is refused after every name. -/
theorem documented_sizeof_fails (name : List Char) (n f : Nat) (rest : List Char) (hn : IsName name)
    (hf : name ≠ "func".toList) (hrest : NumEnds rest) :
    parseType (f + 1) (name ++ '*' :: '@' :: (Nat.toDigits 10 n ++ rest)) = .err := by
  refine refused hn hf (endsAt_cons (by simp [Ends])) ?_
  intro hd hcap
  have hsd : scan (Nat.toDigits 10 n ++ rest) = (.int (Nat.toDigits 10 n), rest) := scan_digits hrest
  have hst := stars_text (k := 1) (r := '@' :: (Nat.toDigits 10 n ++ rest)) (by simp)
  simp only [List.replicate_one, List.cons_append, List.nil_append] at hst
  simp only [assertions, peek, List.head?_cons, hst]
  simp only [show ('*' : Char) ≠ ',' by decide, show ('*' : Char) ≠ ')' by decide,
    show ('*' : Char) ≠ '[' by decide, or_self, if_false, if_true]
  simp only [inverting, inverted, peek, List.head?_cons, Option.some.injEq,
    show ('@' : Char) ≠ '!' by decide, if_false, assertion, scan_own own_at, argument, hsd]
  cases parseInt 64 (Nat.toDigits 10 n) <;> rfl

/-- **C96, violated**: the documented `>=` and `<=` are refused after every name, whatever follows. -/
theorem documented_order_fails (name : List Char) (f : Nat) (rest : List Char) (hn : IsName name)
    (hf : name ≠ "func".toList) (c : Char) (hc : c = '>' ∨ c = '<') :
    parseType (f + 1) (name ++ c :: '=' :: rest) = .err := by
  have ho : Own c := by rcases hc with h | h <;> subst h <;> simp [Own]
  have he : Ends c := by rcases hc with h | h <;> subst h <;> simp [Ends]
  have hne : c ≠ ',' ∧ c ≠ ')' ∧ c ≠ '[' ∧ c ≠ '*' ∧ c ≠ '.' ∧ c ≠ '!' := by
    rcases hc with h | h <;> subst h <;> decide
  refine refused hn hf (endsAt_cons he) ?_
  intro hd hcap
  simp only [assertions, peek, List.head?_cons, hne, or_self, if_false]
  have harg : argument ('=' :: rest) = .err := by
    rw [argument, scan_own (show Own '=' by simp [Own])]
    simp
  simp only [inverting, inverted, peek, List.head?_cons, Option.some.injEq, hne, if_false, assertion,
    scan_own ho, harg, Res.andThen]

/-- **C96, violated**: the example of the package's documentation is refused. -/
theorem documented_example_fails :
    parseTag "fread func(&void[@3],size_t*@1,size_t,&FILE)size_t<@3; ferror(@4)".toList = .err := by
  decide +kernel

/-- The assertions that are refused are written as follows instead, and then read as documented. -/
example : (parseTag "f size_t>@1=".toList, parseTag "f void[=@1]".toList) =
    (.ok (["f".toList], Ty.means (.simple ⟨none, false, "size_t".toList,
        some ⟨.value, false, .moreEq, .index 1⟩⟩)),
      .ok (["f".toList], Ty.means (.simple ⟨none, false, "void".toList,
        some ⟨.capacity, false, .equal, .index 1⟩⟩))) := by decide +kernel

end Verif.Call
