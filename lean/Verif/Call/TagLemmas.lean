import Verif.Call.TagSpec

/-! Proof machinery for call tags. -/

namespace Verif.Call

open Spec

/-! ## Characters -/

/-- Characters that end a token. -/
def Ends (c : Char) : Prop := c ∈ [',', ')', ']', '=', ';', '(', '[', '*', '.', '!', '>', '<', ':', '~', '^', '?', ' ']

/-- Characters that are tokens of their own. -/
def Own (c : Char) : Prop :=
  c ∈ [',', ')', ']', '=', ';', '(', '[', '*', '!', '>', '<', ':', '~', '^', '?', '@', '#', '$', '&', '+', '-']

/-- What follows ends a token. -/
def EndsAt (r : List Char) : Prop := ∀ c, r.head? = some c → Ends c

/-- What follows ends a number. -/
def NumEnds (r : List Char) : Prop := EndsAt r ∧ r.head? ≠ some '.'

theorem Ends.facts {c : Char} (h : Ends c) : isIdent c = false ∧ isDig c = false ∧
    c ≠ 'e' ∧ c ≠ 'E' ∧ c ≠ 'p' ∧ c ≠ 'P' ∧ c ≠ 'x' ∧ c ≠ 'X' ∧ c ≠ 'o' ∧ c ≠ 'O' ∧ c ≠ 'b' ∧ c ≠ 'B' := by
  simp only [Ends, List.mem_cons, List.not_mem_nil, or_false] at h
  rcases h with h | h | h | h | h | h | h | h | h | h | h | h | h | h | h | h | h <;> subst h <;> decide

theorem Own.facts {c : Char} (h : Own c) : isFirst c = false ∧ c.isDigit = false ∧ isSpace c = false ∧
    c ≠ '"' ∧ c ≠ '\'' ∧ c ≠ '`' ∧ c ≠ '.' ∧ c ≠ '/' := by
  simp only [Own, List.mem_cons, List.not_mem_nil, or_false] at h
  rcases h with h | h | h | h | h | h | h | h | h | h | h | h | h | h | h | h | h | h | h | h | h <;>
    subst h <;> decide

theorem skip_stay {c : Char} {r : List Char} (h : isSpace c = false) (h' : c ≠ '/') :
    skip .space (c :: r) = c :: r := by
  cases r with
  | nil => simp [skip, h]
  | cons d r =>
    rw [skip]
    · simp [h]
    · intro r' e; exact absurd e h'
    · intro r' e; exact absurd e h'

theorem skip_space {r : List Char} : skip .space (' ' :: r) = skip .space r := by
  cases r with
  | nil => rfl
  | cons d r =>
    rw [skip]
    · rfl
    · intro r' e; simp at e
    · intro r' e; simp at e

theorem scan_space {r : List Char} : scan (' ' :: r) = scan r := by
  rw [scan, skip_space, scan]

theorem scan_own {c : Char} {r : List Char} (h : Own c) : scan (c :: r) = (.ch c, r) := by
  obtain ⟨h1, h2, h3, h4, h5, h6, h7, h8⟩ := h.facts
  rw [scan, skip_stay h3 h8]
  simp [token, h1, h2, h4, h5, h6, h7]

theorem scan_dot {c : Char} {r : List Char} (h : c.isDigit = false) :
    scan ('.' :: c :: r) = (.ch '.', c :: r) := by
  rw [scan, skip_stay (by decide) (by decide)]
  simp [token, h, show isFirst '.' = false by decide, show ('.' : Char).isDigit = false by decide]

theorem takeWhile_stop {p : Char → Bool} {s r : List Char} (hs : ∀ c ∈ s, p c = true)
    (hr : ∀ c, r.head? = some c → p c = false) :
    (s ++ r).takeWhile p = s ∧ (s ++ r).dropWhile p = r := by
  induction s with
  | nil =>
    cases r with
    | nil => simp
    | cons c r => simp [hr c rfl]
  | cons a s ih =>
    obtain ⟨h1, h2⟩ := ih (fun c hc => hs c (List.mem_cons_of_mem _ hc))
    simp [hs a List.mem_cons_self, h1, h2]

theorem first_facts {c : Char} (h : c = '_' ∨ c.isAlpha) :
    isFirst c = true ∧ isSpace c = false ∧ c ≠ '/' := by
  have hf : isFirst c = true := by
    rcases h with h | h
    · subst h; decide
    · simp [isFirst, h]
  refine ⟨hf, ?_, ?_⟩
  · rw [Bool.eq_false_iff]
    intro hs
    simp only [isSpace, Bool.or_eq_true, beq_iff_eq] at hs
    rcases hs with ((hs | hs) | hs) | hs <;> subst hs <;> exact absurd hf (by decide)
  · intro e; subst e; exact absurd hf (by decide)

theorem scan_name {s r : List Char} (h : IsName s) (hr : EndsAt r) :
    scan (s ++ r) = (.ident s, r) := by
  obtain ⟨c, t, rfl, hc, ht⟩ := h
  obtain ⟨hf, hs, hd⟩ := first_facts hc
  rw [List.cons_append, scan, skip_stay hs hd]
  have ht' : ∀ d ∈ t, isIdent d = true := by
    intro d hd
    rcases ht d hd with h | h | h
    · subst h; decide
    · simp [isIdent, h]
    · simp [isIdent, h]
  obtain ⟨h1, h2⟩ := takeWhile_stop ht' (fun c hc => (hr c hc).facts.1)
  simp [token, hf, h1, h2]

/-! ## Numbers -/

theorem toDigits_isDig (n : Nat) : ∀ c ∈ Nat.toDigits 10 n, c.isDigit = true :=
  fun _ hc => Nat.isDigit_of_mem_toDigits (by decide) (by decide) hc

theorem digit_facts {c : Char} (h : c.isDigit = true) :
    isDig c = true ∧ isFirst c = false ∧ isSpace c = false ∧ c ≠ '/' ∧
    c ≠ 'x' ∧ c ≠ 'X' ∧ c ≠ 'o' ∧ c ≠ 'O' ∧ c ≠ 'b' ∧ c ≠ 'B' := by
  have ne : ∀ d : Char, d.isDigit = false → c ≠ d := fun d hd e => by subst e; simp [h] at hd
  refine ⟨by simp [isDig, h], ?_, ?_, ne _ (by decide), ne _ (by decide), ne _ (by decide),
    ne _ (by decide), ne _ (by decide), ne _ (by decide), ne _ (by decide)⟩
  · rw [Bool.eq_false_iff]
    intro hf
    simp only [isFirst, Bool.or_eq_true, beq_iff_eq] at hf
    rcases hf with hf | hf
    · exact ne _ (by decide) hf
    · simp only [Char.isAlpha, Char.isUpper, Char.isLower, Bool.or_eq_true, Bool.and_eq_true,
        decide_eq_true_eq, ge_iff_le, Char.isDigit, UInt32.le_iff_toNat_le] at hf h
      simp at hf h
      omega
  · rw [Bool.eq_false_iff]
    intro hs
    simp only [isSpace, Bool.or_eq_true, beq_iff_eq] at hs
    rcases hs with ((hs | hs) | hs) | hs <;> exact ne _ (by decide) hs

theorem toDigits_ne_nil (n : Nat) : Nat.toDigits 10 n ≠ [] := by
  rcases Nat.lt_or_ge n 10 with h | h
  · rw [Nat.toDigits_of_lt_base h]; simp
  · rw [Nat.toDigits_of_base_le (by decide) h]; simp

theorem intPart_digits {s r : List Char} (h0 : s ≠ []) (hs : ∀ c ∈ s, c.isDigit = true)
    (hr : NumEnds r) : intPart (s ++ r) = (s, r) := by
  have hw := takeWhile_stop (p := isDig) (fun c hc => (digit_facts (hs c hc)).1)
    (fun c hc => (hr.1 c hc).facts.2.1)
  match s, h0 with
  | [c], _ =>
    cases r with
    | nil =>
      rw [intPart]
      · simp only [hw]
      · intro c' r' e; simp at e
    | cons d r =>
      have hd := (hr.1 d rfl).facts
      by_cases e : c = '0'
      · subst e
        simp only [List.cons_append, List.nil_append] at hw ⊢
        rw [intPart]
        simp only [hd, false_or, if_false, hw]
        
      · rw [intPart]
        · simp only [hw]
        · intro c' r' e'; simp only [List.cons_append, List.cons.injEq] at e'; exact e e'.1
  | c :: d :: s, _ =>
    have hd := digit_facts (hs d (by simp))
    by_cases e : c = '0'
    · subst e
      simp only [List.cons_append] at hw ⊢
      rw [intPart]
      simp only [hd, false_or, if_false, hw]
      
    · rw [intPart]
      · simp only [hw]
      · intro c' r' e'; simp only [List.cons_append, List.cons.injEq] at e'; exact e e'.1

theorem afterInt_none {r : List Char} (hr : NumEnds r) : afterInt r = none := by
  cases r with
  | nil => rfl
  | cons c r =>
    have hc := (hr.1 c rfl).facts
    have hd : c ≠ '.' := fun e => hr.2 (by simp [e])
    rw [afterInt]
    · simp [exponent, hc]
    · intro r' e; simp only [List.cons.injEq] at e; exact hd e.1

theorem scan_digits {n : Nat} {r : List Char} (hr : NumEnds r) :
    scan (Nat.toDigits 10 n ++ r) = (.int (Nat.toDigits 10 n), r) := by
  obtain ⟨c, s, e⟩ := List.exists_cons_of_ne_nil (toDigits_ne_nil n)
  have hall := toDigits_isDig n
  have hi := intPart_digits (toDigits_ne_nil n) hall hr
  have hd := digit_facts (hall c (by simp [e]))
  rw [e] at hi ⊢
  rw [List.cons_append] at hi ⊢
  rw [scan, skip_stay hd.2.2.1 hd.2.2.2.1]
  simp [token, hd, hall c (by simp [e]), number, hi, afterInt_none hr]

theorem decimal_snoc (s : List Char) (c : Char) :
    decimal (s ++ [c]) = decimal s * 10 + (c.toNat - '0'.toNat) := by
  simp [decimal]

theorem digitChar_val {d : Nat} (h : d < 10) : (Nat.digitChar d).toNat - '0'.toNat = d := by
  have : ∀ d : Fin 10, (Nat.digitChar d.1).toNat - '0'.toNat = d.1 := by decide
  exact this ⟨d, h⟩

theorem decimal_toDigits (n : Nat) : decimal (Nat.toDigits 10 n) = n := by
  induction n using Nat.strongRecOn with
  | ind n ih =>
    rcases Nat.lt_or_ge n 10 with h | h
    · rw [Nat.toDigits_of_lt_base h]
      have := digitChar_val h
      simpa [decimal] using this
    · rw [Nat.toDigits_of_base_le (by decide) h, decimal_snoc, ih _ (Nat.div_lt_self (by omega) (by decide)),
        digitChar_val (Nat.mod_lt _ (by decide))]
      omega

theorem parseInt_digits {n bits : Nat} (h : n < 2 ^ (bits - 1)) :
    parseInt bits (Nat.toDigits 10 n) = some n := by
  rw [parseInt, decimal_toDigits, if_pos]
  exact ⟨List.all_eq_true.2 (toDigits_isDig n), h⟩

/-! ## Arguments -/

theorem own_at : Own '@' := by simp [Own]

theorem argument_text {a : Arg} {r : List Char} (ha : a.Valid) (hr : NumEnds r) :
    argument (a.text ++ r) = .ok (a.means, r) := by
  cases a with
  | index n =>
    simp only [Arg.text, Arg.means, List.cons_append, argument, scan_own own_at, scan_digits hr]
    simp only [Arg.Valid] at ha
    rw [parseInt_digits (by omega)]
  | const s =>
    simp only [Arg.text, Arg.means, argument, scan_name ha hr.1]
  | value n =>
    simp only [Arg.text, Arg.means, argument, scan_digits hr]
    rw [parseInt_digits ha]

/-! ## Assertions -/

theorem own_sign (r : Rel) : Own r.sign := by cases r <;> simp [Own, Rel.sign]

theorem sign_not (r : Rel) : r.sign ≠ ',' ∧ r.sign ≠ ')' ∧ r.sign ≠ '[' ∧ r.sign ≠ '*' ∧
    r.sign ≠ '.' ∧ r.sign ≠ '!' ∧ r.sign.isDigit = false := by cases r <;> decide

theorem numEnds_cons {c : Char} {r : List Char} (h : Ends c) (h' : c ≠ '.') : NumEnds (c :: r) :=
  ⟨fun d hd => by simp only [List.head?_cons, Option.some.injEq] at hd; exact hd ▸ h,
    by simpa using h'⟩

/-- The assertions with the relation of a check added. -/
def setRel (a : Assertions) (c : Spec.Rel) (g : Argument) : Assertions :=
  match c with
  | .more => { a with moreThan := some g }
  | .less => { a with lessThan := some g }
  | .moreEq => { a with equality := some g, moreThan := some g }
  | .lessEq => { a with equality := some g, lessThan := some g }
  | .equal => { a with equality := some g }
  | .same => { a with sameType := some g }
  | .apart => { a with inverted := !a.inverted, overlaps := some g }
  | .lifetime => { a with lifetime := some g }
  | .format => { a with ofFormat := some g }

theorem assertion_text {a : Assertions} {c : Spec.Rel} {g : Arg} {r : List Char} (hg : g.Valid)
    (hr : NumEnds r) (he : r.head? ≠ some '=') :
    assertion a (relText c g ++ r) = .ok (setRel a c g.means, r) := by
  have hs := scan_own (r := g.text ++ r) (own_sign c)
  have hs' := scan_own (r := g.text ++ '=' :: r) (own_sign c)
  have ha := argument_text hg hr
  have ha' := argument_text hg (numEnds_cons (r := r) (by simp [Ends] : Ends '=') (by decide))
  cases c <;>
    simp only [relText, List.cons_append, List.nil_append, List.append_nil, List.append_assoc] <;>
    simp only [assertion, hs, hs', ha, ha', Res.andThen] <;>
    simp [Rel.sign, setRel, peek, he, scan_own (show Own '=' by simp [Own])]

theorem inverted_text {b : Bool} {c : Spec.Rel} {g : Arg} {r : List Char} :
    inverted ((if b then ['!'] else []) ++ relText c g ++ r) = (b, relText c g ++ r) := by
  cases b with
  | true => simp [inverted, peek, scan_own (show Own '!' by simp [Own])]
  | false =>
    have := sign_not c
    simp [inverted, peek, relText, this]

theorem stars_text {k : Nat} {r : List Char} (h : r.head? ≠ some '*') :
    stars (List.replicate k '*' ++ r) = (k, r) := by
  induction k with
  | zero =>
    cases r with
    | nil => rfl
    | cons c r =>
      simp only [List.replicate_zero, List.nil_append]
      rw [stars]
      intro r' e; simp only [List.cons.injEq] at e; exact h (by simp [e.1])
  | succ k ih =>
    rw [List.replicate_succ, List.cons_append, stars, ih]

/-- What may follow a type: the end, a comma or a closing parenthesis. -/
def Follows (r : List Char) : Prop := r = [] ∨ r.head? = some ',' ∨ r.head? = some ')'

/-- What may follow an assertion: also a semicolon. -/
def Follows' (r : List Char) : Prop := Follows r ∨ r.head? = some ';'

theorem Follows'.ends {r : List Char} (h : Follows' r) : NumEnds r ∧ r.head? ≠ some '=' := by
  refine ⟨⟨?_, ?_⟩, ?_⟩
  · intro c hc
    rcases h with (h | h | h) | h
    · simp [h] at hc
    all_goals rw [h] at hc; cases hc; simp [Ends]
  all_goals rcases h with (h | h | h) | h <;> simp [h]

/-- Where the mark of inversion and the relation begin. -/
def body (c : Check) : List Char := (if c.invert then ['!'] else []) ++ relText c.rel c.arg

theorem body_head (c : Check) (r : List Char) : ∃ d s, body c ++ r = d :: s ∧ d ≠ ',' ∧ d ≠ ')' ∧
    d ≠ '[' ∧ d ≠ '*' ∧ d ≠ '.' ∧ d.isDigit = false ∧ Ends d := by
  obtain ⟨s, i, c, a⟩ := c
  cases i
  · obtain ⟨h1, h2, h3, h4, h5, h6, h7⟩ := sign_not c
    exact ⟨c.sign, _, rfl, h1, h2, h3, h4, h5, h7, by cases c <;> simp [Ends, Rel.sign]⟩
  · exact ⟨'!', _, rfl, by decide, by decide, by decide, by decide, by decide, by decide, by simp [Ends]⟩

theorem inverting_text {h : Head} {c : Check} {r : List Char} (hc : c.arg.Valid)
    (hcap : h.test.capacity = false) (hr : NumEnds r) (he : r.head? ≠ some '=') :
    inverting h (body c ++ r) =
      .ok ({ h with test := setRel { h.test with inverted := c.invert } c.rel c.arg.means }, r) := by
  rw [inverting, body, inverted_text]
  simp only [assertion_text hc hr he, Res.andThen]
  have : (setRel { h.test with inverted := c.invert } c.rel c.arg.means).capacity = false := by
    rw [← hcap]; cases c.rel <;> rfl
  simp [closing, this]

theorem inverting_cap {h : Head} {c : Check} {r : List Char} (hc : c.arg.Valid)
    (hcap : h.test.capacity = true) :
    inverting h (body c ++ ']' :: r) =
      .ok ({ h with test := setRel { h.test with inverted := c.invert } c.rel c.arg.means }, r) := by
  rw [inverting, body, inverted_text]
  simp only [assertion_text hc (numEnds_cons (r := r) (by simp [Ends] : Ends ']') (by decide))
    (by simp : (']' :: r).head? ≠ some '='), Res.andThen]
  have : (setRel { h.test with inverted := c.invert } c.rel c.arg.means).capacity = true := by
    rw [← hcap]; cases c.rel <;> rfl
  simp [closing, this, scan_own (show Own ']' by simp [Own])]

theorem dots_text {d : Char} {s : List Char} (h : d.isDigit = false) :
    dots ('.' :: '.' :: '.' :: d :: s) = some (d :: s) := by
  simp [dots, scan_dot (show ('.' : Char).isDigit = false by decide), scan_dot h]

theorem check_means (c : Check) :
    c.means = setRel
      { capacity := c.subject = .capacity, inverted := c.invert,
        indirect := match c.subject with | .behind k => k + 1 | _ => 0 } c.rel c.arg.means := by
  obtain ⟨s, i, r, a⟩ := c
  cases r <;> cases s <;> simp [Check.means, setRel]

theorem assertions_none {h : Head} {r : List Char} (hr : Follows r) : assertions h r = .ok (h, r) := by
  rcases hr with hr | hr | hr
  · subst hr; rfl
  · simp [assertions, peek, hr]
  · simp [assertions, peek, hr]

theorem assertions_text {h : Head} {c : Check} {r : List Char} (hc : c.arg.Valid)
    (hh : h.test = {}) (hm : h.more = false) (hr : Follows' r) :
    assertions h (c.text ++ r) =
      .ok ({ h with test := c.means, more := c.subject = .each }, r) := by
  obtain ⟨hne, heq⟩ := hr.ends
  rw [check_means c]
  obtain ⟨d, s, e, h1, h2, h3, h4, h5, h6, h7⟩ := body_head c r
  obtain ⟨d', s', e', h1', h2', h3', h4', h5', h6', h7'⟩ := body_head c (']' :: r)
  obtain ⟨nm, ha, fr, te, ca, mo, ma⟩ := h
  simp only at hh hm
  subst hh hm
  obtain ⟨sub, i, rel, a⟩ := c
  cases sub with
  | value =>
    have ht : Check.text ⟨.value, i, rel, a⟩ = body ⟨.value, i, rel, a⟩ := rfl
    rw [ht]
    have hi := inverting_text (h := ⟨nm, ha, fr, {}, ca, false, ma⟩) hc rfl hne heq
    rw [e] at hi ⊢
    simp only [assertions, peek, List.head?_cons, h1, h2, h3, h4, h5, or_self, if_false]
    rw [hi]
    simp
  | capacity =>
    have ht : Check.text ⟨.capacity, i, rel, a⟩ ++ r = '[' :: (body ⟨.capacity, i, rel, a⟩ ++ ']' :: r) := by
      simp [Check.text, body]
    rw [ht]
    simp only [assertions, peek, List.head?_cons, scan_own (show Own '[' by simp [Own])]
    simp only [show ('[' : Char) ≠ ',' by decide, show ('[' : Char) ≠ ')' by decide, or_self, if_false, if_true]
    rw [inverting_cap hc rfl]
    simp
  | behind k =>
    have ht : Check.text ⟨.behind k, i, rel, a⟩ ++ r =
        List.replicate (k + 1) '*' ++ (body ⟨.behind k, i, rel, a⟩ ++ r) := by
      simp [Check.text, body]
    rw [ht]
    have hst := stars_text (k := k + 1) (r := body ⟨.behind k, i, rel, a⟩ ++ r)
      (by rw [e]; simpa using h4)
    have hp : peek (List.replicate (k + 1) '*' ++ (body ⟨.behind k, i, rel, a⟩ ++ r)) = some '*' := by
      simp [peek, List.replicate_succ]
    simp only [assertions, hp, hst]
    simp only [show ('*' : Char) ≠ ',' by decide, show ('*' : Char) ≠ ')' by decide,
      show ('*' : Char) ≠ '[' by decide, or_self, if_false, if_true]
    rw [inverting_text hc rfl hne heq]
    simp
  | each =>
    have ht : Check.text ⟨.each, i, rel, a⟩ ++ r = '.' :: '.' :: '.' :: (body ⟨.each, i, rel, a⟩ ++ r) := by
      simp [Check.text, body]
    rw [ht]
    have hi := inverting_text (h := ⟨nm, ha, fr, {}, ca, true, ma⟩) hc rfl hne heq
    rw [e] at hi ⊢
    have hp : peek ('.' :: '.' :: '.' :: d :: s) = some '.' := rfl
    simp only [assertions, hp, dots_text h6]
    simp only [show ('.' : Char) ≠ ',' by decide, show ('.' : Char) ≠ ')' by decide,
      show ('.' : Char) ≠ '[' by decide, show ('.' : Char) ≠ '*' by decide, or_self, if_false, if_true]
    rw [hi]
    simp

end Verif.Call
