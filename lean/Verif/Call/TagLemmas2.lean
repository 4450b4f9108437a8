import Verif.Call.TagLemmas

/-! Proof machinery for call tags: types. -/

namespace Verif.Call

open Spec

theorem name_head {s : List Char} (h : IsName s) : ∃ c t, s = c :: t ∧ (c = '_' ∨ c.isAlpha) := by
  obtain ⟨c, t, rfl, hc, _⟩ := h
  exact ⟨c, t, rfl, hc⟩

theorem first_ne {c d : Char} (h : c = '_' ∨ c.isAlpha) (hd : isFirst d = false) : c ≠ d := by
  intro e; subst e; simp [(first_facts h).1] at hd

theorem parseHead_text {free : Option Char} {hash : Bool} {s r : List Char} (hf : FreeValid free)
    (hs : IsName s) (hr : EndsAt r) :
    parseHead (marks free hash ++ s ++ r) = .ok ({ name := s, hash := hash, free := free }, r) := by
  have hn := scan_name hs hr
  cases free with
  | none =>
    cases hash with
    | false => simp [marks, parseHead, hn]
    | true => simp [marks, parseHead, hn, scan_own (show Own '#' by simp [Own])]
  | some c =>
    have hc := hf c rfl
    have ho : Own c := by
      simp only [List.mem_cons, List.not_mem_nil, or_false] at hc
      rcases hc with h | h | h | h | h | h <;> subst h <;> simp [Own]
    have hc' : c = '$' ∨ c = '&' ∨ c = '*' ∨ c = '~' ∨ c = '+' ∨ c = '-' := by simpa using hc
    cases hash with
    | false =>
      obtain ⟨d, t, e, hd⟩ := name_head hs
      have hp : peek (s ++ r) ≠ some '#' := by
        rw [e]; simpa [peek] using first_ne hd (by decide)
      simp [marks, parseHead, scan_own ho, hc', hp, hn]
    | true => simp [marks, parseHead, scan_own ho, hc', peek, hn, scan_own (show Own '#' by simp [Own])]

/-- Types do not begin with what may follow a type. -/
theorem marks_head {free : Option Char} {hash : Bool} {s : List Char} (hf : FreeValid free) (hs : IsName s) :
    ∃ c t, marks free hash ++ s = c :: t ∧ c ≠ ')' ∧ c ≠ ',' := by
  cases free with
  | some c =>
    have hc := hf c rfl
    simp only [List.mem_cons, List.not_mem_nil, or_false] at hc
    refine ⟨c, _, rfl, ?_, ?_⟩ <;> rcases hc with h | h | h | h | h | h <;> subst h <;> decide
  | none =>
    cases hash with
    | true => exact ⟨'#', _, rfl, by decide, by decide⟩
    | false =>
      obtain ⟨c, t, e, hc⟩ := name_head hs
      exact ⟨c, t, by simp [marks, e], first_ne hc (by decide), first_ne hc (by decide)⟩

theorem func_isName : IsName "func".toList :=
  ⟨'f', ['u', 'n', 'c'], by decide, by decide, by decide⟩

theorem text_head : (t : Ty) → t.Valid → ∃ c s, t.text = c :: s ∧ c ≠ ')' ∧ c ≠ ','
  | .simple s, h => by
    obtain ⟨c, t, e, h1, h2⟩ := marks_head (hash := s.hash) h.1 h.2.1
    exact ⟨c, _, by rw [Ty.text, Simple.text, e]; rfl, h1, h2⟩
  | .func free hash args ret, h => by
    simp only [Ty.Valid] at h
    obtain ⟨c, t, e, h1, h2⟩ := marks_head (hash := hash) h.1 func_isName
    exact ⟨c, _, by rw [Ty.text, e]; rfl, h1, h2⟩

theorem check_head (c : Check) (r : List Char) : ∃ d s, c.text ++ r = d :: s ∧ Ends d := by
  obtain ⟨d, s, e, h1, h2, h3, h4, h5, h6, h7⟩ := body_head c r
  obtain ⟨sub, i, rel, a⟩ := c
  cases sub with
  | value => exact ⟨d, s, e, h7⟩
  | capacity => exact ⟨'[', _, rfl, by simp [Ends]⟩
  | behind k => exact ⟨'*', _, rfl, by simp [Ends]⟩
  | each => exact ⟨'.', _, rfl, by simp [Ends]⟩

theorem endsAt_cons {c : Char} {r : List Char} (h : Ends c) : EndsAt (c :: r) :=
  fun d hd => by simp only [List.head?_cons, Option.some.injEq] at hd; exact hd ▸ h

/-- Reading a type other than a function. -/
theorem simple_text {s : Simple} {f : Nat} {r : List Char} (h : s.Valid)
    (hr : Follows' r) (hn : s.check = none → Follows r) :
    parseType (f + 1) (s.text ++ r) = .ok (.mk s.means .none .nil, r) := by
  obtain ⟨hf, hs, hne, hc⟩ := h
  obtain ⟨free, hash, name, check⟩ := s
  simp only at hf hs hne hc hn
  cases check with
  | none =>
    rw [parseType, Simple.text]
    simp only [List.append_nil]
    rw [parseHead_text hf hs hr.ends.1.1]
    simp only [Res.andThen, hne, if_false, assertions_none (hn rfl)]
    rfl
  | some c =>
    rw [parseType, Simple.text]
    simp only [List.append_assoc]
    obtain ⟨d, t, e, he⟩ := check_head c r
    have := parseHead_text (hash := hash) hf hs (by rw [e]; exact endsAt_cons he : EndsAt (c.text ++ r))
    simp only [List.append_assoc] at this
    rw [this]
    simp only [Res.andThen, hne, if_false]
    rw [assertions_text (hc c rfl) rfl rfl hr]
    rfl

theorem arg_head {a : Arg} (h : a.Valid) : ∃ c s, a.text = c :: s ∧ c ≠ ')' := by
  cases a with
  | index n => exact ⟨'@', _, rfl, by decide⟩
  | const s =>
    obtain ⟨c, t, e, hc⟩ := name_head h
    exact ⟨c, t, e, first_ne hc (by decide)⟩
  | value n =>
    obtain ⟨c, s, e⟩ := List.exists_cons_of_ne_nil (toDigits_ne_nil n)
    refine ⟨c, s, e, ?_⟩
    have := toDigits_isDig n c (by simp [e])
    intro e; subst e; exact absurd this (by decide)

theorem callArgs_text : ∀ (as : List Arg) (f : Nat) (acc : List Argument) (r : List Char),
    (∀ a ∈ as, a.Valid) → as.length + 1 ≤ f →
    callArgs f acc (commas (as.map Arg.text) ++ ')' :: r) = .ok (acc ++ as.map Arg.means, r)
  | [], f + 1, acc, r, _, _ => by
    simp [commas, callArgs, peek, scan_own (show Own ')' by simp [Own])]
  | [a], f + 2, acc, r, ha, _ => by
    obtain ⟨c, s, e, hc⟩ := arg_head (ha a (by simp))
    have := argument_text (ha a (by simp)) (numEnds_cons (r := r) (by simp [Ends] : Ends ')') (by decide))
    simp only [List.map_cons, List.map_nil, commas]
    rw [e] at this ⊢
    rw [callArgs]
    simp only [List.cons_append] at this ⊢
    simp only [peek, List.head?_cons, Option.some.injEq, hc, if_false, reduceCtorEq, this, Res.andThen]
    simp [callArgs, peek, scan_own (show Own ')' by simp [Own])]
  | a :: b :: as, f + 1, acc, r, ha, hf => by
    obtain ⟨c, s, e, hc⟩ := arg_head (ha a (by simp))
    have ih := callArgs_text (b :: as) f (acc ++ [a.means]) r
      (fun x hx => ha x (List.mem_cons_of_mem _ hx)) (by simp at hf ⊢; omega)
    have := argument_text (ha a (by simp)) (numEnds_cons
      (r := commas ((b :: as).map Arg.text) ++ ')' :: r) (by simp [Ends] : Ends ',') (by decide))
    have ec : commas ((a :: b :: as).map Arg.text) ++ ')' :: r =
        a.text ++ ',' :: (commas ((b :: as).map Arg.text) ++ ')' :: r) := by simp [commas]
    rw [ec]
    rw [e] at this ⊢
    rw [callArgs]
    simp only [List.cons_append] at this ⊢
    simp only [peek, List.head?_cons, Option.some.injEq, hc, if_false, reduceCtorEq, this, Res.andThen,
      if_true, scan_own (show Own ',' by simp [Own])]
    rw [ih]
    simp
  | [], 0, _, _, _, hf => by simp at hf
  | [_], 0, _, _, _, hf => by simp at hf
  | [_], 1, _, _, _, hf => by simp at hf
  | _ :: _ :: _, 0, _, _, _, hf => by simp at hf

theorem failure_none {f : Nat} {r : List Char} (h : Follows r) : failure f r = .ok ({}, r) := by
  rcases h with h | h | h
  · subst h; rfl
  · simp [failure, peek, h]
  · simp [failure, peek, h]

theorem commas_length : ∀ (as : List Arg), (∀ a ∈ as, a.Valid) →
    as.length ≤ (commas (as.map Arg.text)).length
  | [], _ => by simp
  | [a], h => by
    obtain ⟨c, s, e, _⟩ := arg_head (h a (by simp))
    simp [commas, e]
  | a :: b :: as, h => by
    have := commas_length (b :: as) (fun x hx => h x (List.mem_cons_of_mem _ hx))
    simp [commas] at this ⊢
    omega

theorem failure_text {f : Nat} {s : List Char} {as : List Arg} {r : List Char} (hs : IsName s)
    (ha : ∀ a ∈ as, a.Valid) (hf : as.length + 1 ≤ f) :
    failure f (';' :: ' ' :: s ++ '(' :: (commas (as.map Arg.text) ++ ')' :: r)) =
      .ok ({ name := s, args := as.map Arg.means }, r) := by
  have hn := scan_name (r := '(' :: (commas (as.map Arg.text) ++ ')' :: r)) hs
    (endsAt_cons (by simp [Ends]))
  rw [failure]
  simp only [List.cons_append, peek, List.head?_cons, if_true, scan_own (show Own ';' by simp [Own]),
    scan_space, hn, scan_own (show Own '(' by simp [Own]), callArgs_text as f [] r ha hf, Res.andThen]
  rfl

/-- Lists put together. -/
def Ts.append : Ts → Ts → Ts
  | .nil, b => b
  | .cons t a, b => .cons t (a.append b)

theorem append_nil : (a : Ts) → a.append .nil = a
  | .nil => rfl
  | .cons t a => by rw [Ts.append, append_nil a]

theorem snoc_append : (a : Ts) → (t : T) → (b : Ts) → (a.snoc t).append b = a.append (.cons t b)
  | .nil, _, _ => rfl
  | .cons x a, t, b => by rw [Ts.snoc, Ts.append, snoc_append a, Ts.append]

theorem len_snoc : (a : Ts) → (t : T) → (a.snoc t).len = a.len + 1
  | .nil, _ => rfl
  | .cons x a, t => by rw [Ts.snoc, Ts.len, len_snoc a, Ts.len]

mutual
theorem type_text : (t : Ty) → t.Valid → ∀ (f : Nat) (r : List Char),
    2 * (t.text ++ r).length + 1 ≤ f → Follows r → parseType f (t.text ++ r) = .ok (t.means, r)
  | .simple s, h, f, r, hf, hr => by
    obtain ⟨f, rfl⟩ : ∃ g, f = g + 1 := ⟨f - 1, by omega⟩
    exact simple_text (s := s) h (.inl hr) (fun _ => hr)
  | .func free hash args ret, h, f, r, hf, hr => by
    simp only [Ty.Valid] at h
    obtain ⟨f, rfl⟩ : ∃ g, f = g + 1 := ⟨f - 1, by omega⟩
    simp only [Ty.text, List.length_append, List.length_cons] at hf
    have hh := parseHead_text (hash := hash) (r := '(' :: (args.text ++ ')' :: (ret.text ++ r))) h.1
      func_isName (endsAt_cons (by simp [Ends]))
    have e : Ty.text (.func free hash args ret) ++ r =
        marks free hash ++ "func".toList ++ '(' :: (args.text ++ ')' :: (ret.text ++ r)) := by
      simp [Ty.text]
    have ha := args_text args h.2.1 f .nil (ret.text ++ r) (by simp; omega)
    obtain ⟨r', hret, hfail⟩ := ret_text ret h.2.2 f r (by simp; omega) hr
    rw [e, parseType, hh]
    simp only [Res.andThen, if_true, scan_own (show Own '(' by simp [Own]), ha, hret, hfail,
      assertions_none hr]
    simp [Ty.means, Ts.append, Ts.len]
theorem args_text : (ts : Tys) → ts.Valid → ∀ (f : Nat) (acc : Ts) (r : List Char),
    2 * (ts.text ++ ')' :: r).length + 2 ≤ f →
    parseArgs f acc (ts.text ++ ')' :: r) = .ok (acc.append (ts.means (acc.len + 1)), r)
  | .nil, _, f, acc, r, hf => by
    obtain ⟨f, rfl⟩ : ∃ g, f = g + 1 := ⟨f - 1, by omega⟩
    rw [parseArgs]
    simp [Tys.text, peek, scan_own (show Own ')' by simp [Own]), Tys.means, append_nil]
  | .cons t .nil, h, f, acc, r, hf => by
    simp only [Tys.Valid] at h
    obtain ⟨f, rfl⟩ : ∃ g, f = g + 2 := ⟨f - 2, by omega⟩
    obtain ⟨c, s, e, hc, hc'⟩ := text_head t h.1
    have ht := type_text t h.1 (f + 1) (')' :: r) (by
      simp [Tys.text] at hf ⊢; omega) (.inr (.inr rfl))
    simp only [Tys.text, List.length_append, List.length_cons] at hf ⊢
    rw [parseArgs]
    simp only [e, List.cons_append] at ht ⊢
    simp only [peek, List.head?_cons, Option.some.injEq, hc, if_false, reduceCtorEq, ht, Res.andThen]
    simp only [show (')' : Char) ≠ ',' by decide, if_false, if_true]
    rw [parseArgs]
    simp [peek, scan_own (show Own ')' by simp [Own]), Tys.means]
    rw [← snoc_append, append_nil]
  | .cons t (.cons u us), h, f, acc, r, hf => by
    simp only [Tys.Valid] at h
    obtain ⟨f, rfl⟩ : ∃ g, f = g + 1 := ⟨f - 1, by omega⟩
    obtain ⟨c, s, e, hc, hc'⟩ := text_head t h.1
    have et : Tys.text (.cons t (.cons u us)) ++ ')' :: r =
        t.text ++ ',' :: (Tys.text (.cons u us) ++ ')' :: r) := by simp [Tys.text]
    rw [et] at hf ⊢
    simp only [List.length_append, List.length_cons] at hf
    have ht := type_text t h.1 f (',' :: (Tys.text (.cons u us) ++ ')' :: r)) (by
      simp only [List.length_append, List.length_cons]; have : 1 ≤ t.text.length := by simp [e]
      omega) (.inr (.inl rfl))
    have ih := args_text (.cons u us) h.2 f (acc.snoc (t.means.withMaps (acc.len + 1))) r (by
      simp only [List.length_append, List.length_cons]; omega)
    rw [parseArgs]
    simp only [e, List.cons_append] at ht ⊢
    simp only [peek, List.head?_cons, Option.some.injEq, hc, if_false, reduceCtorEq, ht, Res.andThen,
      if_true, scan_own (show Own ',' by simp [Own]), ih]
    rw [snoc_append, len_snoc]
    rfl
theorem ret_text : (ret : Ret) → ret.Valid → ∀ (f : Nat) (r : List Char),
    2 * (ret.text ++ r).length + 2 ≤ f → Follows r →
    ∃ r', parseRet f (ret.text ++ r) = .ok (ret.means, r') ∧ failure f r' = .ok (ret.symbol, r)
  | .none, _, f, r, hf, hr => by
    obtain ⟨f, rfl⟩ : ∃ g, f = g + 1 := ⟨f - 1, by omega⟩
    refine ⟨r, ?_, failure_none hr⟩
    rw [parseRet, if_pos]
    · simp [Ret.text, Ret.means]
    · rcases hr with h | h | h
      · subst h; exact .inl rfl
      · exact .inr (.inl (by simpa [Ret.text, peek] using h))
      · exact .inr (.inr (by simpa [Ret.text, peek] using h))
  | .some t, h, f, r, hf, hr => by
    simp only [Ret.Valid] at h
    obtain ⟨f, rfl⟩ : ∃ g, f = g + 1 := ⟨f - 1, by omega⟩
    obtain ⟨c, s, e, hc, hc'⟩ := text_head t h
    refine ⟨r, ?_, failure_none hr⟩
    have ht := type_text t h f r (by simp only [Ret.text] at hf; omega) hr
    simp only [Ret.text]
    rw [parseRet, if_neg]
    · rw [ht]; rfl
    · simp [e, peek, hc, hc']
  | .fails s c symbol args, h, f, r, hf, hr => by
    simp only [Ret.Valid] at h
    obtain ⟨f, rfl⟩ : ∃ g, f = g + 2 := ⟨f - 2, by omega⟩
    have et : Ret.text (.fails s c symbol args) ++ r = Simple.text { s with check := .some c } ++
        (';' :: ' ' :: symbol ++ '(' :: (commas (args.map Arg.text) ++ ')' :: r)) := by
      simp [Ret.text]
    rw [et] at hf ⊢
    refine ⟨';' :: ' ' :: symbol ++ '(' :: (commas (args.map Arg.text) ++ ')' :: r), ?_,
      failure_text h.2.1 h.2.2 ?_⟩
    · obtain ⟨d, u, e, hc, hc'⟩ := text_head (.simple { s with check := .some c })
        (by simpa only [Ty.Valid] using h.1)
      simp only [Ty.text] at e
      rw [parseRet, if_neg]
      · rw [simple_text h.1 (.inr rfl) (fun hn => by simp at hn)]
        rfl
      · simp [e, peek, hc, hc']
    · have := commas_length args h.2.2
      simp only [List.length_append, List.length_cons] at hf
      omega
end

/-! ## Symbols -/

theorem cutSpace_text {s r : List Char} (h : ' ' ∉ s) : cutSpace (s ++ ' ' :: r) = some (s, r) := by
  induction s with
  | nil => rfl
  | cons c s ih =>
    have h1 : c ≠ ' ' := fun e => h (by simp [e])
    have h2 : ' ' ∉ s := fun e => h (by simp [e])
    simp [cutSpace, h1, ih h2]

theorem splitComma_ne_nil (s : List Char) : splitComma s ≠ [] := by
  cases s with
  | nil => simp [splitComma]
  | cons c s =>
    rw [splitComma]
    split
    · simp
    · split <;> simp

theorem splitComma_word {w : List Char} (h : ',' ∉ w) : splitComma w = [w] := by
  induction w with
  | nil => rfl
  | cons c w ih =>
    have h1 : c ≠ ',' := fun e => h (by simp [e])
    have h2 : ',' ∉ w := fun e => h (by simp [e])
    simp [splitComma, h1, ih h2]

theorem splitComma_cons {w r : List Char} (h : ',' ∉ w) :
    splitComma (w ++ ',' :: r) = w :: splitComma r := by
  induction w with
  | nil => simp [splitComma]
  | cons c w ih =>
    have h1 : c ≠ ',' := fun e => h (by simp [e])
    have h2 : ',' ∉ w := fun e => h (by simp [e])
    simp [splitComma, h1, ih h2]

theorem splitComma_commas : ∀ ws : List (List Char), ws ≠ [] → (∀ w ∈ ws, ',' ∉ w) →
    splitComma (commas ws) = ws
  | [], h, _ => absurd rfl h
  | [w], _, h => splitComma_word (h w (by simp))
  | w :: v :: ws, _, h => by
    rw [commas, splitComma_cons (h w (by simp)),
      splitComma_commas (v :: ws) (by simp) (fun x hx => h x (List.mem_cons_of_mem _ hx))]
    simp

theorem commas_no_space : ∀ ws : List (List Char), (∀ w ∈ ws, ' ' ∉ w) → ' ' ∉ commas ws
  | [], _ => by simp [commas]
  | [w], h => h w (by simp)
  | w :: v :: ws, h => by
    have h1 := h w (by simp)
    have h2 := commas_no_space (v :: ws) (fun x hx => h x (List.mem_cons_of_mem _ hx))
    rw [commas]
    · simp only [List.mem_append, List.mem_cons, not_or]
      exact ⟨h1, by decide, h2⟩
    · simp

/-! ## The fuel suffices -/

theorem dropWhile_le (p : Char → Bool) (s : List Char) : (s.dropWhile p).length ≤ s.length := by
  induction s with
  | nil => simp
  | cons c s ih =>
    rw [List.dropWhile_cons]
    split
    · simp; omega
    · simp

theorem skip_le : ∀ (m : Skip) (s : List Char), (skip m s).length ≤ s.length := by
  intro m s
  fun_induction skip m s <;> simp_all <;> omega

theorem exponent_lt {s r : List Char} (h : exponent s = some r) : r.length < s.length := by
  cases s with
  | nil => simp [exponent] at h
  | cons c s =>
    rw [exponent.eq_def] at h
    dsimp only at h
    split at h
    · split at h <;> simp only [Option.some.injEq] at h <;> subst h
      · rename_i u
        have := dropWhile_le isDig u
        simp; omega
      · rename_i u
        have := dropWhile_le isDig u
        simp; omega
      · have := dropWhile_le isDig s
        simp; omega
    · simp at h

theorem afterInt_lt {s r : List Char} (h : afterInt s = some r) : r.length < s.length := by
  rw [afterInt.eq_def] at h
  split at h
  · simp only [Option.some.injEq] at h
    subst h
    rename_i u
    have := dropWhile_le isDig u
    cases he : exponent (u.dropWhile isDig) with
    | none => simp; omega
    | some v =>
      have := exponent_lt he
      simp; omega
  · exact exponent_lt h

theorem intPart_le (s : List Char) : (intPart s).2.length ≤ s.length := by
  rw [intPart.eq_def]
  split
  · rename_i c r
    split
    · have := dropWhile_le isHex r
      simp; omega
    · split
      · have := dropWhile_le isDig r
        simp; omega
      · exact dropWhile_le isDig _
  · exact dropWhile_le isDig _

theorem intPart_lt {c : Char} {s : List Char} (h : c.isDigit = true) :
    (intPart (c :: s)).2.length < (c :: s).length := by
  have hd := (digit_facts h).1
  have key : ((c :: s).dropWhile isDig).length < (c :: s).length := by
    have := dropWhile_le isDig s
    rw [List.dropWhile_cons, if_pos hd]
    simp; omega
  rw [intPart.eq_def]
  split
  · rename_i d r e
    cases e
    split
    · have := dropWhile_le isHex r
      simp; omega
    · split
      · have := dropWhile_le isDig r
        simp; omega
      · exact key
  · exact key

theorem token_le (s : List Char) : (token s).2.length ≤ s.length := by
  rw [token.eq_def]
  split
  · simp
  · rename_i c r
    have h1 := dropWhile_le isIdent r
    have h2 := dropWhile_le isDig r
    split
    · simp; omega
    · split
      · rename_i hd
        rw [number]
        split
        · have := afterInt_lt ‹_›
          have := intPart_le (c :: r)
          simp only; omega
        · exact intPart_le (c :: r)
      · split
        · simp
        · split
          · simp; omega
          · simp

theorem token_lt (s : List Char) (h : (token s).1 ≠ .eof) : (token s).2.length < s.length := by
  rw [token.eq_def] at h ⊢
  split
  · exact absurd rfl h
  · rename_i c r
    have h1 := dropWhile_le isIdent r
    have h2 := dropWhile_le isDig r
    split
    · simp; omega
    · split
      · rename_i hd
        rw [number]
        split
        · have := afterInt_lt ‹_›
          have := intPart_le (c :: r)
          simp only; omega
        · exact intPart_lt hd
      · split
        · simp
        · split
          · simp; omega
          · simp

theorem scan_le (s : List Char) : (scan s).2.length ≤ s.length := by
  have h1 := token_le (skip .space s)
  have h2 := skip_le .space s
  rw [scan]; omega

theorem scan_lt {s : List Char} {t : Tok} {r : List Char} (h : scan s = (t, r)) (ht : t ≠ .eof) :
    r.length < s.length := by
  have h1 := token_lt (skip .space s) (by rw [← scan, h]; exact ht)
  have h2 := skip_le .space s
  rw [← scan, h] at h1
  simp only at h1
  omega

/-- A call that ends, having used up something. -/
def Done {α : Type} (n : Nat) (x : Res (α × List Char)) : Prop :=
  x ≠ .out ∧ ∀ a r, x = .ok (a, r) → r.length < n

/-- A call that ends. -/
def Done' {α : Type} (n : Nat) (x : Res (α × List Char)) : Prop :=
  x ≠ .out ∧ ∀ a r, x = .ok (a, r) → r.length ≤ n

theorem done_err {α : Type} {n : Nat} : Done (α := α) n .err := ⟨by simp, by simp⟩
theorem done'_err {α : Type} {n : Nat} : Done' (α := α) n .err := ⟨by simp, by simp⟩
theorem done_ok {α : Type} {n : Nat} {a : α} {r : List Char} (h : r.length < n) : Done n (.ok (a, r)) :=
  ⟨by simp, by intro b s e; cases e; exact h⟩
theorem done'_ok {α : Type} {n : Nat} {a : α} {r : List Char} (h : r.length ≤ n) : Done' n (.ok (a, r)) :=
  ⟨by simp, by intro b s e; cases e; exact h⟩
theorem Done.weak {α : Type} {n : Nat} {x : Res (α × List Char)} (h : Done n x) : Done' n x :=
  ⟨h.1, fun a r e => Nat.le_of_lt (h.2 a r e)⟩

theorem Done.bind {α β : Type} {n m : Nat} {x : Res (α × List Char)} {g : α × List Char → Res (β × List Char)}
    (h : Done n x) (hg : ∀ a r, r.length < n → Done m (g (a, r))) : Done m (x.andThen g) := by
  rcases x with ⟨a, r⟩ | _ | _
  · exact hg a r (h.2 a r rfl)
  · exact done_err
  · exact absurd rfl h.1

theorem Done'.bind {α β : Type} {n m : Nat} {x : Res (α × List Char)} {g : α × List Char → Res (β × List Char)}
    (h : Done' n x) (hg : ∀ a r, r.length ≤ n → Done m (g (a, r))) : Done m (x.andThen g) := by
  rcases x with ⟨a, r⟩ | _ | _
  · exact hg a r (h.2 a r rfl)
  · exact done_err
  · exact absurd rfl h.1

theorem Done'.bind' {α β : Type} {n m : Nat} {x : Res (α × List Char)} {g : α × List Char → Res (β × List Char)}
    (h : Done' n x) (hg : ∀ a r, r.length ≤ n → Done' m (g (a, r))) : Done' m (x.andThen g) := by
  rcases x with ⟨a, r⟩ | _ | _
  · exact hg a r (h.2 a r rfl)
  · exact done'_err
  · exact absurd rfl h.1

theorem argument_done (s : List Char) : Done s.length (argument s) := by
  rw [argument]
  split
  · have h1 := scan_lt ‹_› (by simp)
    split
    · have h2 := scan_lt ‹_› (by simp)
      split
      · exact done_ok (by omega)
      · exact done_err
    · exact done_err
  · exact done_ok (scan_lt ‹_› (by simp))
  · split
    · exact done_ok (scan_lt ‹_› (by simp))
    · exact done_err
  · exact done_err

theorem parseHead_done (s : List Char) : Done s.length (parseHead s) := by
  rw [parseHead]
  split
  · exact done_ok (scan_lt ‹_› (by simp))
  · have h1 := scan_lt ‹_› (by simp)
    rename_i c r _
    split
    · split
      · split
        · have h2 := scan_lt ‹_› (by simp)
          have h3 := scan_le r
          exact done_ok (by omega)
        · exact done_err
      · split
        · have h2 := scan_lt ‹_› (by simp)
          exact done_ok (by omega)
        · exact done_err
    · split
      · split
        · have h2 := scan_lt ‹_› (by simp)
          exact done_ok (by omega)
        · exact done_err
      · exact done_err
  · exact done_err

theorem callArgs_done : ∀ (f : Nat) (acc : List Argument) (s : List Char), s.length + 1 ≤ f →
    Done' s.length (callArgs f acc s)
  | 0, _, _, h => by omega
  | f + 1, acc, s, h => by
    rw [callArgs]
    split
    · exact done'_ok (scan_le s)
    · split
      · exact done'_err
      · refine Done'.bind' (n := s.length - 1) ?_ ?_
        · have := argument_done s
          exact ⟨this.1, fun a r e => by have := this.2 a r e; omega⟩
        · intro a r hr
          have hs : 1 ≤ s.length := by
            cases s with
            | nil => simp [peek] at *
            | cons => simp
          have h1 := scan_le r
          dsimp only
          split
          · have := callArgs_done f (acc ++ [a]) (scan r).2 (by omega)
            exact ⟨this.1, fun a r e => by have := this.2 a r e; omega⟩
          · split
            · have := callArgs_done f (acc ++ [a]) r (by omega)
              exact ⟨this.1, fun a r e => by have := this.2 a r e; omega⟩
            · exact done'_err

theorem failure_done {f : Nat} {s : List Char} (h : s.length + 1 ≤ f) : Done' s.length (failure f s) := by
  rw [failure]
  split
  · split
    · have h1 := scan_lt ‹_› (by simp)
      have h2 := scan_le s
      split
      · have h3 := scan_lt ‹_› (by simp)
        rename_i u _
        refine Done'.bind' (callArgs_done f [] u (by omega)) ?_
        intro a r hr
        exact done'_ok (by omega)
      · exact done'_err
    · exact done'_err
  · exact done'_ok (Nat.le_refl _)

theorem stars_le (s : List Char) : (stars s).2.length ≤ s.length := by
  fun_induction stars s <;> simp_all; omega

theorem inverted_le (s : List Char) : (inverted s).2.length ≤ s.length := by
  rw [inverted]
  split
  · exact scan_le s
  · exact Nat.le_refl _

theorem assertion_done (a : Assertions) (s : List Char) : Done' s.length (assertion a s) := by
  rw [assertion]
  have h1 := scan_le s
  refine Done'.bind' (argument_done _).weak ?_
  intro g r hr
  have h2 := scan_le r
  dsimp only
  split
  · split <;> exact done'_ok (by omega)
  · split <;> exact done'_ok (by omega)
  all_goals first | exact done'_ok (by omega) | exact done'_err

theorem inverting_done (h : Head) (s : List Char) : Done' s.length (inverting h s) := by
  rw [inverting]
  have h1 := inverted_le s
  refine Done'.bind' (assertion_done _ _) ?_
  intro a r hr
  dsimp only
  rw [closing]
  split
  · split
    · have h2 := scan_lt ‹_› (by simp)
      exact done'_ok (by omega)
    · exact done'_err
  · exact done'_ok (by omega)

theorem dots_le {s r : List Char} (h : dots s = some r) : r.length ≤ s.length := by
  rw [dots] at h
  split at h
  · have h1 := scan_lt ‹_› (by simp)
    split at h
    · have h2 := scan_lt ‹_› (by simp)
      split at h
      · have h3 := scan_lt ‹_› (by simp)
        cases h
        omega
      · simp at h
    · simp at h
  · simp at h

theorem assertions_done (h : Head) (s : List Char) : Done' s.length (assertions h s) := by
  have key : ∀ h' r, r.length ≤ s.length → Done' s.length (inverting h' r) := fun h' r hr =>
    ⟨(inverting_done h' r).1, fun a t e => Nat.le_trans ((inverting_done h' r).2 a t e) hr⟩
  rw [assertions]
  split
  · exact done'_ok (Nat.le_refl _)
  · split
    · exact done'_ok (Nat.le_refl _)
    · split
      · exact key _ _ (scan_le s)
      · split
        · exact key _ _ (stars_le s)
        · split
          · split
            · exact key _ _ (dots_le ‹_›)
            · exact done'_err
          · exact key _ _ (Nat.le_refl _)

theorem Done.mono {α : Type} {n m : Nat} {x : Res (α × List Char)} (h : Done n x) (hm : n ≤ m) :
    Done m x := ⟨h.1, fun a r e => Nat.lt_of_lt_of_le (h.2 a r e) hm⟩
theorem Done'.mono {α : Type} {n m : Nat} {x : Res (α × List Char)} (h : Done' n x) (hm : n ≤ m) :
    Done' m x := ⟨h.1, fun a r e => Nat.le_trans (h.2 a r e) hm⟩

theorem peek_some_length {s : List Char} (h : ¬ peek s = none) : 1 ≤ s.length := by
  cases s with
  | nil => simp [peek] at h
  | cons => simp

theorem all_done : ∀ f : Nat,
    (∀ s, 2 * s.length + 1 ≤ f → Done s.length (parseType f s)) ∧
    (∀ acc s, 2 * s.length + 2 ≤ f → Done' s.length (parseArgs f acc s)) ∧
    (∀ s, 2 * s.length + 2 ≤ f → Done' s.length (parseRet f s))
  | 0 => ⟨fun _ h => by omega, fun _ _ h => by omega, fun _ h => by omega⟩
  | f + 1 => by
    obtain ⟨ih1, ih2, ih3⟩ := all_done f
    refine ⟨fun s h => ?_, fun acc s h => ?_, fun s h => ?_⟩
    · rw [parseType]
      refine (parseHead_done s).bind ?_
      intro hd r hr
      dsimp only
      split
      · split
        · have h1 := scan_lt ‹_› (by simp)
          rename_i u _
          refine (ih2 .nil u (by omega)).bind ?_
          intro as v hv
          refine (ih3 v (by omega)).bind ?_
          intro ret w hw
          refine (failure_done (s := w) (by omega)).bind ?_
          intro c x hx
          refine (assertions_done _ x).bind ?_
          intro h' y hy
          exact done_ok (by dsimp only; omega)
        · exact done_err
      · refine (assertions_done _ r).bind ?_
        intro h' y hy
        exact done_ok (by dsimp only; omega)
    · rw [parseArgs]
      split
      · exact done'_ok (scan_le s)
      · split
        · exact done'_err
        · have hs := peek_some_length ‹_›
          refine Done'.bind' (n := s.length - 1) ?_ ?_
          · have := ih1 s (by omega)
            exact ⟨this.1, fun a r e => by have := this.2 a r e; omega⟩
          · intro t r hr
            have h1 := scan_le r
            dsimp only
            split
            · exact (ih2 _ _ (by omega)).mono (by omega)
            · split
              · exact (ih2 _ _ (by omega)).mono (by omega)
              · exact done'_err
    · rw [parseRet]
      split
      · exact done'_ok (Nat.le_refl _)
      · refine Done'.bind' (ih1 s (by omega)).weak ?_
        intro t r hr
        exact done'_ok hr

end Verif.Call
