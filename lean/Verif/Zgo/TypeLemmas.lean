import Verif.Zgo.TypeSpec
/-!
# zgo types as text: a reader of the text, and that it reads back what was written
-/
namespace Verif.Zgo.Typ

/-- Characters of a word. -/
def wordChar (c : Char) : Bool := !(punctuation.contains c)

/-- The text after a prefix. -/
def expect : Str → Str → Option Str
  | [], s => some s
  | _ :: _, [] => none
  | a :: p, b :: s => if a = b then expect p s else none

theorem expect_append (p r : Str) : expect p (p ++ r) = some r := by
  induction p with
  | nil => rfl
  | cons a p ih => simpa [expect] using ih

/-- The word the text begins with. -/
def word (s : Str) : Str := s.takeWhile wordChar
/-- What follows it. -/
def rest (s : Str) : Str := s.dropWhile wordChar

/-- The basic type of a word after `go.`. -/
def basicOf (w : Str) : Option Basic :=
  if w = ['i', 'n', 't'] then some .int else
  if w = ['i', 'n', 't', '8'] then some .int8 else
  if w = ['i', 'n', 't', '1', '6'] then some .int16 else
  if w = ['i', 'n', 't', '3', '2'] then some .int32 else
  if w = ['i', 'n', 't', '6', '4'] then some .int64 else
  if w = ['u', 'i', 'n', 't'] then some .uint else
  if w = ['u', 'i', 'n', 't', '8'] then some .uint8 else
  if w = ['u', 'i', 'n', 't', '1', '6'] then some .uint16 else
  if w = ['u', 'i', 'n', 't', '3', '2'] then some .uint32 else
  if w = ['u', 'i', 'n', 't', '6', '4'] then some .uint64 else
  if w = ['u', 'i', 'n', 't', 'p', 't', 'r'] then some .uintptr else
  if w = ['f', 'l', 'o', 'a', 't', '3', '2'] then some .float32 else
  if w = ['f', 'l', 'o', 'a', 't', '6', '4'] then some .float64 else
  if w = ['s', 't', 'r', 'i', 'n', 'g'] then some .string else
  if w = ['c', 'o', 'm', 'p', 'l', 'e', 'x', '6', '4'] then some .complex64 else
  if w = ['c', 'o', 'm', 'p', 'l', 'e', 'x', '1', '2', '8'] then some .complex128 else none

mutual
/-- Reads a type. -/
def read (cur : Str) : Nat → Str → Option (Ty × Str)
  | 0, _ => none
  | n + 1, s =>
    match s with
    | '[' :: s => do
      let r ← expect [']'] (s.dropWhile Char.isDigit)
      let (e, r) ← read cur n r
      some (.array (Nat.ofDigitChars 10 (s.takeWhile Char.isDigit) 0) e, r)
    | '@' :: s => do
      let s ← expect ['"'] s
      let t ← expect ['.'] (rest s)
      let r ← expect ['"'] (rest t)
      if word s = ['g', 'o'] then some (.named none (word t) .nil, r)
      else some (.named (some ⟨[], word s⟩) (word t) .nil, r)
    | s =>
      if word s = ['g', 'o'] ∧ (rest s).head? = some '.' then readGo cur n (rest s).tail
      else if word s = ['b', 'o', 'o', 'l'] then some (.basic .bool, rest s)
      else if word s = ['s', 't', 'r', 'u', 'c', 't'] then do
        let r ← expect [' ', '{'] (rest s)
        let (fs, r) ← readFields cur n true r
        let r ← expect ['}'] r
        some (.struct fs, r)
      else some (.named (some ⟨[], cur⟩) (word s) .nil, rest s)
/-- Reads a type after `go.`. -/
def readGo (cur : Str) : Nat → Str → Option (Ty × Str)
  | 0, _ => none
  | n + 1, s =>
    match basicOf (word s) with
    | some b => some (.basic b, rest s)
    | none =>
      if word s = ['a', 'n', 'y'] then some (.interface .nil, rest s)
      else if word s = ['t', 'e', 's', 't', 'i', 'n', 'g'] then do
        let t ← expect ['.'] (rest s)
        some (.named (some ⟨[], ['t', 'e', 's', 't', 'i', 'n', 'g']⟩) (word t) .nil, rest t)
      else if word s = ['p', 'o', 'i', 'n', 't', 'e', 'r'] then do
        let r ← expect ['('] (rest s)
        let (e, r) ← read cur n r
        let r ← expect [')'] r
        some (.pointer e, r)
      else if word s = ['s', 'l', 'i', 'c', 'e'] then do
        let r ← expect ['('] (rest s)
        let (e, r) ← read cur n r
        let r ← expect [')'] r
        some (.slice e, r)
      else if word s = ['c', 'h', 'a', 'n'] then do
        let r ← expect ['('] (rest s)
        let (e, r) ← read cur n r
        let r ← expect [')'] r
        some (.chan .both e, r)
      else if word s = ['s', 'm', 'a', 'p'] then do
        let r ← expect ['('] (rest s)
        let (e, r) ← read cur n r
        let r ← expect [')'] r
        some (.map (.basic .string) e, r)
      else if word s = ['m', 'a', 'p'] then do
        let r ← expect ['('] (rest s)
        let (k, r) ← read cur n r
        let r ← expect [',', ' '] r
        let (v, r) ← read cur n r
        let r ← expect [')'] r
        some (.map k v, r)
      else if word s = ['f', 'u', 'n', 'c'] then do
        let r ← expect ['(', 'f', 'n', '(', '*', 'c', 'o', 'n', 's', 't', ' ', 'a', 'n', 'y', 'o', 'p', 'a', 'q', 'u', 'e', ',', '?', '*', 'g', 'o', '.', 'r', 'o', 'u', 't', 'i', 'n', 'e'] (rest s)
        let (ps, r) ← readParams cur n r
        let r ← expect [')', ' '] r
        let (rs, r) ← readResult cur n r
        let r ← expect [')'] r
        some (.func false ps rs, r)
      else if word s = ['i', 'n', 't', 'e', 'r', 'f', 'a', 'c', 'e'] then do
        let r ← expect ['(', 's', 't', 'r', 'u', 'c', 't', '{'] (rest s)
        let (ms, r) ← readMethods cur n true r
        let r ← expect ['}', ')'] r
        some (.interface ms, r)
      else none
/-- Reads the parameters. -/
def readParams (cur : Str) : Nat → Str → Option (Tys × Str)
  | 0, _ => none
  | n + 1, s =>
    match expect [',', ' '] s with
    | none => some (.nil, s)
    | some r => do
      let (t, r) ← read cur n r
      let (ts, r) ← readParams cur n r
      some (.cons t ts, r)
/-- Reads the result. -/
def readResult (cur : Str) : Nat → Str → Option (Tys × Str)
  | 0, _ => none
  | n + 1, s =>
    if word s = ['v', 'o', 'i', 'd'] then some (.nil, rest s)
    else do
      let (t, r) ← read cur n s
      some (.cons t .nil, r)
/-- Reads the fields. -/
def readFields (cur : Str) : Nat → Bool → Str → Option (Fields × Str)
  | 0, _, _ => none
  | n + 1, first, s =>
    match s.head? with
    | some '}' => some (.nil, s)
    | _ => do
      let s ← expect (if first then [] else [',', ' ']) s
      let r ← expect [':', ' '] (rest s)
      let (t, r) ← read cur n r
      let (fs, r) ← readFields cur n false r
      some (.cons (word s) false [] t fs, r)
/-- Reads the methods. -/
def readMethods (cur : Str) : Nat → Bool → Str → Option (Methods × Str)
  | 0, _, _ => none
  | n + 1, first, s =>
    match s.head? with
    | some '}' => some (.nil, s)
    | _ => do
      let s ← expect (if first then [] else [',', ' ']) s
      let r ← expect [':', ' ', '*', 'c', 'o', 'n', 's', 't', ' ', 'f', 'n', '(', '?', '*', 'g', 'o', '.', 'r', 'o', 'u', 't', 'i', 'n', 'e', ',', '*', 'c', 'o', 'n', 's', 't', ' ', 'a', 'n', 'y', 'o', 'p', 'a', 'q', 'u', 'e'] (rest s)
      let (ps, r) ← readParams cur n r
      let r ← expect [')', ' '] r
      let (rs, r) ← readResult cur n r
      let (ms, r) ← readMethods cur n false r
      some (.cons (word s) false ps rs ms, r)
end

/-- What may follow a type. -/
def Ends (r : Str) : Prop := ∀ c ∈ r.head?, c = ',' ∨ c = ')' ∨ c = '}'

theorem ends_comma (r : Str) : Ends ([',', ' '] ++ r) := by simp [Ends]
theorem ends_paren (r : Str) : Ends ([')'] ++ r) := by simp [Ends]
theorem ends_brace (r : Str) : Ends ('}' :: r) := by simp [Ends]

theorem wordChar_ident {s : Str} (h : Ident s) : ∀ c ∈ s, wordChar c = true := by
  intro c hc
  have := h.2 c hc
  simp only [wordChar, Bool.not_eq_true', List.contains_eq_mem, decide_eq_false_iff_not]
  exact this

/-- No word goes on. -/
def Stops (r : Str) : Prop := ∀ c ∈ r.head?, wordChar c = false

theorem stops_ends {r : Str} (h : Ends r) : Stops r := by
  intro c hc
  rcases h c hc with h | h | h <;> subst h <;> decide

theorem stops_cons {c : Char} (h : wordChar c = false) (r : Str) : Stops (c :: r) := by
  intro d hd
  simp at hd
  subst hd
  exact h

theorem span_word {w r : Str} (hw : ∀ c ∈ w, wordChar c = true) (hr : Stops r) :
    word (w ++ r) = w ∧ rest (w ++ r) = r := by
  induction w with
  | nil =>
    cases r with
    | nil => exact ⟨rfl, rfl⟩
    | cons c r =>
      have := hr c (by simp)
      simp [word, rest, this]
  | cons c w ih =>
    have hc := hw c (by simp)
    have h2 := ih fun d hd => hw d (by simp [hd])
    simp only [word, rest] at h2
    simp [word, rest, hc, h2.1, h2.2]

theorem span_digits (n : Nat) (r : Str) :
    (decimal n ++ (']' :: r)).takeWhile Char.isDigit = decimal n ∧
    (decimal n ++ (']' :: r)).dropWhile Char.isDigit = ']' :: r := by
  have h : ∀ c ∈ decimal n, c.isDigit = true := fun c hc => Nat.isDigit_of_mem_toDigits (by decide) (by decide) hc
  revert h
  generalize decimal n = d
  intro h
  induction d with
  | nil => simp
  | cons c d ih =>
    have hc := h c (by simp)
    have h2 := ih fun e he => h e (by simp [he])
    simp [hc, h2.1, h2.2]

theorem read_go (cur : Str) (n : Nat) (s : Str) : read cur (n + 1) ('g' :: 'o' :: '.' :: s) = readGo cur n s := by
  simp [read, word, rest, wordChar, punctuation]

theorem read_word (cur : Str) (n : Nat) (c : Char) (s : Str) (h1 : c ≠ '[') (h2 : c ≠ '@') :
    read cur (n + 1) (c :: s) =
      if word (c :: s) = ['g', 'o'] ∧ (rest (c :: s)).head? = some '.' then readGo cur n (rest (c :: s)).tail
      else if word (c :: s) = ['b', 'o', 'o', 'l'] then some (.basic .bool, rest (c :: s))
      else if word (c :: s) = ['s', 't', 'r', 'u', 'c', 't'] then do
        let r ← expect [' ', '{'] (rest (c :: s))
        let (fs, r) ← readFields cur n true r
        let r ← expect ['}'] r
        some (.struct fs, r)
      else some (.named (some ⟨[], cur⟩) (word (c :: s)) .nil, rest (c :: s)) := by
  rw [read]
  · intro y hy
    exact h1 (List.cons.inj hy).1
  · intro y hy
    exact h2 (List.cons.inj hy).1

theorem notVoid (cur : Str) : ∀ (t : Ty) (s r : Str), Good cur t → typeText cur t = some s → Ends r →
    word (s ++ r) ≠ ['v', 'o', 'i', 'd']
  | .basic b, s, r, _, h, _ => by
    cases b <;> simp only [typeText, Basic.text, Option.some.injEq, reduceCtorEq] at h <;> subst h <;>
      simp [word, wordChar, punctuation]
    all_goals
      cases r <;> simp
  | .array n e, s, r, _, h, _ => by
    simp only [typeText, Option.map_eq_some_iff] at h
    obtain ⟨x, _, h⟩ := h
    subst h
    simp [word, wordChar, punctuation]
  | .func _ ps rs, s, r, _, h, _ => by
    simp only [typeText] at h
    split at h
    · have h := Option.some.inj h
      subst h
      simp [word, wordChar, punctuation]
    · cases h
  | .named none name _, s, r, _, h, _ => by
    simp only [typeText] at h
    have h := Option.some.inj h
    subst h
    simp [word, wordChar, punctuation]
  | .named (some p) name _, s, r, hg, h, hr => by
    simp only [typeText] at h
    split at h
    · have h := Option.some.inj h
      subst h
      simp [word, wordChar, punctuation]
    · split at h
      · rename_i hc
        have h := Option.some.inj h
        subst h
        have h2 := (span_word (wordChar_ident hg.1) (stops_ends hr)).1
        rw [h2]
        intro h3
        apply hg.2.2.1 hc
        rw [h3]
        simp [zigWords]
      · have h := Option.some.inj h
        subst h
        simp [word, wordChar, punctuation]
  | .pointer e, s, r, _, h, _ => by
    simp only [typeText, Option.map_eq_some_iff] at h
    obtain ⟨x, _, h⟩ := h
    subst h
    simp [word, wordChar, punctuation]
  | .slice e, s, r, _, h, _ => by
    simp only [typeText, Option.map_eq_some_iff] at h
    obtain ⟨x, _, h⟩ := h
    subst h
    simp [word, wordChar, punctuation]
  | .chan _ e, s, r, _, h, _ => by
    simp only [typeText, Option.map_eq_some_iff] at h
    obtain ⟨x, _, h⟩ := h
    subst h
    simp [word, wordChar, punctuation]
  | .map k v, s, r, _, h, _ => by
    simp only [typeText] at h
    split at h
    · simp only [Option.map_eq_some_iff] at h
      obtain ⟨x, _, h⟩ := h
      subst h
      simp [word, wordChar, punctuation]
    · split at h
      · have h := Option.some.inj h
        subst h
        simp [word, wordChar, punctuation]
      · cases h
  | .interface .nil, s, r, _, h, _ => by
    simp only [typeText] at h
    have h := Option.some.inj h
    subst h
    simp [word, wordChar, punctuation]
  | .interface (.cons name va ps rs ms), s, r, _, h, _ => by
    simp only [typeText, Option.map_eq_some_iff] at h
    obtain ⟨x, _, h⟩ := h
    subst h
    simp [word, wordChar, punctuation]
  | .struct fs, s, r, _, h, _ => by
    simp only [typeText, Option.map_eq_some_iff] at h
    obtain ⟨x, _, h⟩ := h
    subst h
    simp [word, wordChar, punctuation]
  | .tuple _, _, _, hg, _, _ => hg.elim
  | .absent, _, _, hg, _, _ => hg.elim
  | .aliased _ t, s, r, hg, h, hr => by
    simp only [typeText] at h
    simp only [Good] at hg
    exact notVoid cur t s r hg h hr
  | .other, _, _, hg, _, _ => hg.elim

theorem params_ends (cur : Str) (ts : Tys) (s r : Str) (h : paramsText cur ts = some s) : Ends (s ++ (')' :: r)) := by
  cases ts with
  | nil =>
    simp only [paramsText, Option.some.injEq] at h
    subst h
    simp [Ends]
  | cons t ts =>
    simp only [paramsText] at h
    split at h
    · have h := Option.some.inj h
      subst h
      simp [Ends]
    · cases h

theorem fields_ends (cur : Str) (fs : Fields) (s r : Str) (h : fieldsText cur false fs = some s) :
    Ends (s ++ ('}' :: r)) := by
  cases fs with
  | nil =>
    simp only [fieldsText, Option.some.injEq] at h
    subst h
    simp [Ends]
  | cons name e tag t ts =>
    simp only [fieldsText] at h
    split at h
    · have h := Option.some.inj h
      subst h
      simp [Ends]
    · cases h

theorem methods_ends (cur : Str) (ms : Methods) (s r : Str) (h : methodsText cur false ms = some s) :
    Ends (s ++ ('}' :: r)) := by
  cases ms with
  | nil =>
    simp only [methodsText, Option.some.injEq] at h
    subst h
    simp [Ends]
  | cons name va ps rs ms =>
    simp only [methodsText] at h
    split at h
    · have h := Option.some.inj h
      subst h
      simp [Ends]
    · cases h

theorem head_ident {s : Str} (h : Ident s) (r : Str) : ∃ c x, s ++ r = c :: x ∧ wordChar c = true := by
  cases s with
  | nil => exact absurd rfl h.1
  | cons c x => exact ⟨c, x ++ r, rfl, wordChar_ident h c (by simp)⟩

theorem word_lit (w : Str) (c : Char) (r : Str) (hw : w.all wordChar = true) (hc : wordChar c = false) :
    word (w ++ (c :: r)) = w ∧ rest (w ++ (c :: r)) = c :: r :=
  span_word (by simpa using hw) (stops_cons hc r)

theorem up {m j n : Nat} (h : m + j ≤ n) : ∃ k, n = k + j ∧ m ≤ k := ⟨n - j, by omega, by omega⟩

theorem read_basic (cur : Str) (n : Nat) (w : Str) (b : Basic) (r : Str) (hw : w.all wordChar = true)
    (hb : basicOf w = some b) (hr : Stops r) :
    read cur (n + 2) ('g' :: 'o' :: '.' :: (w ++ r)) = some (.basic b, r) := by
  rw [read_go, readGo]
  have := span_word (by simpa using hw) hr
  rw [this.1, this.2, hb]

mutual
theorem read_text (cur : Str) : ∀ (t : Ty) (s r : Str), Good cur t → typeText cur t = some s → Ends r →
    ∃ m, ∀ n, m ≤ n → read cur n (s ++ r) = some (erase t, r)
  | .basic b, s, r, _, h, hr => by
    refine ⟨0 + 2, fun n hn => ?_⟩
    obtain ⟨n, rfl, hk⟩ := up hn
    have hs := stops_ends hr
    cases b <;> simp only [typeText, Basic.text, Option.some.injEq, reduceCtorEq] at h
    case bool =>
      have := span_word (w := ['b', 'o', 'o', 'l']) (by decide) hs
      subst h
      simp only [List.cons_append, List.nil_append] at this ⊢
      refine (read_word cur _ _ _ (by decide) (by decide)).trans ?_
      rw [this.1, this.2]
      rfl
    case untypedBool =>
      have := span_word (w := ['b', 'o', 'o', 'l']) (by decide) hs
      subst h
      simp only [List.cons_append, List.nil_append] at this ⊢
      refine (read_word cur _ _ _ (by decide) (by decide)).trans ?_
      rw [this.1, this.2]
      rfl
    case int =>
      subst h
      exact read_basic cur n ['i', 'n', 't'] .int r (by decide) (by decide) hs
    case untypedInt =>
      subst h
      exact read_basic cur n ['i', 'n', 't'] .int r (by decide) (by decide) hs
    case int8 =>
      subst h
      exact read_basic cur n ['i', 'n', 't', '8'] .int8 r (by decide) (by decide) hs
    case int16 =>
      subst h
      exact read_basic cur n ['i', 'n', 't', '1', '6'] .int16 r (by decide) (by decide) hs
    case int32 =>
      subst h
      exact read_basic cur n ['i', 'n', 't', '3', '2'] .int32 r (by decide) (by decide) hs
    case int64 =>
      subst h
      exact read_basic cur n ['i', 'n', 't', '6', '4'] .int64 r (by decide) (by decide) hs
    case uint =>
      subst h
      exact read_basic cur n ['u', 'i', 'n', 't'] .uint r (by decide) (by decide) hs
    case uint8 =>
      subst h
      exact read_basic cur n ['u', 'i', 'n', 't', '8'] .uint8 r (by decide) (by decide) hs
    case uint16 =>
      subst h
      exact read_basic cur n ['u', 'i', 'n', 't', '1', '6'] .uint16 r (by decide) (by decide) hs
    case uint32 =>
      subst h
      exact read_basic cur n ['u', 'i', 'n', 't', '3', '2'] .uint32 r (by decide) (by decide) hs
    case uint64 =>
      subst h
      exact read_basic cur n ['u', 'i', 'n', 't', '6', '4'] .uint64 r (by decide) (by decide) hs
    case uintptr =>
      subst h
      exact read_basic cur n ['u', 'i', 'n', 't', 'p', 't', 'r'] .uintptr r (by decide) (by decide) hs
    case float32 =>
      subst h
      exact read_basic cur n ['f', 'l', 'o', 'a', 't', '3', '2'] .float32 r (by decide) (by decide) hs
    case float64 =>
      subst h
      exact read_basic cur n ['f', 'l', 'o', 'a', 't', '6', '4'] .float64 r (by decide) (by decide) hs
    case string =>
      subst h
      exact read_basic cur n ['s', 't', 'r', 'i', 'n', 'g'] .string r (by decide) (by decide) hs
    case complex64 =>
      subst h
      exact read_basic cur n ['c', 'o', 'm', 'p', 'l', 'e', 'x', '6', '4'] .complex64 r (by decide) (by decide) hs
    case complex128 =>
      subst h
      exact read_basic cur n ['c', 'o', 'm', 'p', 'l', 'e', 'x', '1', '2', '8'] .complex128 r (by decide) (by decide) hs
    case untypedRune =>
      subst h
      exact read_basic cur n ['i', 'n', 't', '3', '2'] .int32 r (by decide) (by decide) hs
    case untypedFloat =>
      subst h
      exact read_basic cur n ['f', 'l', 'o', 'a', 't', '6', '4'] .float64 r (by decide) (by decide) hs
    case untypedString =>
      subst h
      exact read_basic cur n ['s', 't', 'r', 'i', 'n', 'g'] .string r (by decide) (by decide) hs
    case untypedComplex =>
      subst h
      exact read_basic cur n ['c', 'o', 'm', 'p', 'l', 'e', 'x', '1', '2', '8'] .complex128 r (by decide) (by decide) hs
  | .array k e, s, r, hg, h, hr => by
    simp only [typeText, Option.map_eq_some_iff] at h
    obtain ⟨x, hx, h⟩ := h
    obtain ⟨m, hm⟩ := read_text cur e x r (by simpa only [Good] using hg) hx hr
    refine ⟨m + 1, fun n hn => ?_⟩
    obtain ⟨n, rfl, hk⟩ := up hn
    subst h
    have hd := span_digits k (x ++ r)
    simp only [List.cons_append, List.append_assoc, read, hd.1, hd.2, expect, if_pos, Option.bind_eq_bind, Option.bind_some]
    rw [hm n (by omega)]
    simp only [Option.bind_some, erase, decimal, Nat.ofDigitChars_ten_toDigits]
  | .func va ps rs, s, r, hg, h, hr => by
    simp only [typeText] at h
    split at h
    · rename_i p q hp hq
      have h := Option.some.inj h
      simp only [Good] at hg
      obtain ⟨m, hm⟩ := read_params cur ps p ([' '] ++ (q ++ ([')'] ++ r))) hg.1 hp
      obtain ⟨m2, hm2⟩ := read_result cur rs q ([')'] ++ r) hg.2 hq (ends_paren r)
      refine ⟨m + m2 + 2, fun n hn => ?_⟩
      obtain ⟨n, rfl, hk⟩ := up hn
      subst h
      have e1 := expect_append ['(', 'f', 'n', '(', '*', 'c', 'o', 'n', 's', 't', ' ', 'a', 'n', 'y', 'o', 'p', 'a', 'q', 'u', 'e', ',', '?', '*', 'g', 'o', '.', 'r', 'o', 'u', 't', 'i', 'n', 'e'] (p ++ ([')', ' '] ++ (q ++ ([')'] ++ r))))
      have e2 := expect_append [')', ' '] (q ++ ([')'] ++ r))
      have e3 := expect_append [')'] r
      have hw := word_lit ['f', 'u', 'n', 'c'] '(' (['f', 'n', '(', '*', 'c', 'o', 'n', 's', 't', ' ', 'a', 'n', 'y', 'o', 'p', 'a', 'q', 'u', 'e', ',', '?', '*', 'g', 'o', '.', 'r', 'o', 'u', 't', 'i', 'n', 'e'] ++ (p ++ ([')', ' '] ++ (q ++ ([')'] ++ r))))) (by decide) (by decide)
      simp only [List.append_assoc, List.cons_append, List.nil_append] at e1 e2 e3 hw hm hm2 ⊢
      refine (read_go cur _ _).trans ?_
      simp only [readGo, hw.1, hw.2]
      show (do
        let r ← expect ['(', 'f', 'n', '(', '*', 'c', 'o', 'n', 's', 't', ' ', 'a', 'n', 'y', 'o', 'p', 'a', 'q', 'u', 'e', ',', '?', '*', 'g', 'o', '.', 'r', 'o', 'u', 't', 'i', 'n', 'e'] _
        let (ps, r) ← readParams cur _ r
        let r ← expect [')', ' '] r
        let (rs, r) ← readResult cur _ r
        let r ← expect [')'] r
        some (Ty.func false ps rs, r)) = _
      simp only [e1, Option.bind_eq_bind, Option.bind_some, hm n (by omega), e2,
        hm2 n (by omega), e3, erase]
    · cases h
  | .named none name args, s, r, hg, h, hr => by
    simp only [typeText] at h
    have h := Option.some.inj h
    simp only [Good] at hg
    refine ⟨0 + 1, fun n hn => ?_⟩
    obtain ⟨n, rfl, hk⟩ := up hn
    subst h
    have h1 := word_lit ['g', 'o'] '.' (name ++ (['"'] ++ r)) (by decide) (by decide)
    have h2 := span_word (wordChar_ident hg) (stops_cons (c := '"') (by decide) r)
    simp only [List.append_assoc, List.cons_append, List.nil_append] at h1 h2 ⊢
    simp only [read, expect, if_pos, Option.bind_eq_bind, Option.bind_some, h1, h2, erase]
  | .named (some p) name args, s, r, hg, h, hr => by
    simp only [typeText] at h
    simp only [Good] at hg
    split at h
    · rename_i hp
      have h := Option.some.inj h
      refine ⟨0 + 2, fun n hn => ?_⟩
      obtain ⟨n, rfl, hk⟩ := up hn
      subst h
      have h1 := word_lit ['t', 'e', 's', 't', 'i', 'n', 'g'] '.' (name ++ r) (by decide) (by decide)
      have h2 := span_word (wordChar_ident hg.1) (stops_ends hr)
      simp only [List.append_assoc, List.cons_append, List.nil_append] at h1 h2 ⊢
      refine (read_go cur _ _).trans ?_
      simp only [readGo, h1.1, h1.2]
      show (do
        let t ← expect ['.'] _
        some (Ty.named (some ⟨[], ['t', 'e', 's', 't', 'i', 'n', 'g']⟩) (word t) .nil, rest t)) = _
      simp only [expect, if_pos, Option.bind_eq_bind, Option.bind_some, h2, erase, hp]
    · split at h
      · rename_i hc
        have h := Option.some.inj h
        refine ⟨0 + 1, fun n hn => ?_⟩
        obtain ⟨n, rfl, hk⟩ := up hn
        subst h
        have h2 := span_word (wordChar_ident hg.1) (stops_ends hr)
        have hz := hg.2.2.1 hc
        simp only [zigWords, List.mem_cons, List.not_mem_nil, or_false, not_or] at hz
        have hd : ¬ r.head? = some '.' := by
          intro hd
          have := hr '.' (by rw [hd]; rfl)
          revert this
          decide
        obtain ⟨c, x, hx, hcw⟩ := head_ident hg.1 r
        have hc1 : c ≠ '[' := by rintro rfl; exact absurd hcw (by decide)
        have hc2 : c ≠ '@' := by rintro rfl; exact absurd hcw (by decide)
        rw [hx] at h2 ⊢
        rw [read]
        · simp only [h2.1, h2.2, hz.1, hz.2.2, hd, and_false, if_false, erase, hc]
        · intro y hy
          exact hc1 (List.cons.inj hy).1
        · intro y hy
          exact hc2 (List.cons.inj hy).1
      · rename_i hc
        have h := Option.some.inj h
        refine ⟨0 + 1, fun n hn => ?_⟩
        obtain ⟨n, rfl, hk⟩ := up hn
        subst h
        have h1 := span_word (wordChar_ident hg.2.1) (stops_cons (c := '.') (by decide) (name ++ (['"'] ++ r)))
        have h2 := span_word (wordChar_ident hg.1) (stops_cons (c := '"') (by decide) r)
        simp only [List.append_assoc, List.cons_append, List.nil_append] at h1 h2 ⊢
        simp only [read, expect, if_pos, Option.bind_eq_bind, Option.bind_some, h1, h2, erase, hg.2.2.2 hc, if_false]
  | .pointer e, s, r, hg, h, hr => by
    simp only [typeText, Option.map_eq_some_iff] at h
    obtain ⟨x, hx, h⟩ := h
    obtain ⟨m, hm⟩ := read_text cur e x ([')'] ++ r) (by simpa only [Good] using hg) hx (ends_paren r)
    refine ⟨m + 2, fun n hn => ?_⟩
    obtain ⟨n, rfl, hk⟩ := up hn
    subst h
    have hw := word_lit ['p', 'o', 'i', 'n', 't', 'e', 'r'] '(' (x ++ ([')'] ++ r)) (by decide) (by decide)
    simp only [List.append_assoc, List.cons_append, List.nil_append] at hw hm ⊢
    refine (read_go cur _ _).trans ?_
    simp only [readGo, hw.1, hw.2]
    show (do
        let r ← expect ['('] _
        let (e, r) ← read cur _ r
        let r ← expect [')'] r
        some (Ty.pointer e, r)) = _
    simp only [expect, if_pos, Option.bind_eq_bind, Option.bind_some, hm n (by omega), erase]
  | .slice e, s, r, hg, h, hr => by
    simp only [typeText, Option.map_eq_some_iff] at h
    obtain ⟨x, hx, h⟩ := h
    obtain ⟨m, hm⟩ := read_text cur e x ([')'] ++ r) (by simpa only [Good] using hg) hx (ends_paren r)
    refine ⟨m + 2, fun n hn => ?_⟩
    obtain ⟨n, rfl, hk⟩ := up hn
    subst h
    have hw := word_lit ['s', 'l', 'i', 'c', 'e'] '(' (x ++ ([')'] ++ r)) (by decide) (by decide)
    simp only [List.append_assoc, List.cons_append, List.nil_append] at hw hm ⊢
    refine (read_go cur _ _).trans ?_
    simp only [readGo, hw.1, hw.2]
    show (do
        let r ← expect ['('] _
        let (e, r) ← read cur _ r
        let r ← expect [')'] r
        some (Ty.slice e, r)) = _
    simp only [expect, if_pos, Option.bind_eq_bind, Option.bind_some, hm n (by omega), erase]
  | .chan d e, s, r, hg, h, hr => by
    simp only [typeText, Option.map_eq_some_iff] at h
    obtain ⟨x, hx, h⟩ := h
    obtain ⟨m, hm⟩ := read_text cur e x ([')'] ++ r) (by simpa only [Good] using hg) hx (ends_paren r)
    refine ⟨m + 2, fun n hn => ?_⟩
    obtain ⟨n, rfl, hk⟩ := up hn
    subst h
    have hw := word_lit ['c', 'h', 'a', 'n'] '(' (x ++ ([')'] ++ r)) (by decide) (by decide)
    simp only [List.append_assoc, List.cons_append, List.nil_append] at hw hm ⊢
    refine (read_go cur _ _).trans ?_
    simp only [readGo, hw.1, hw.2]
    show (do
        let r ← expect ['('] _
        let (e, r) ← read cur _ r
        let r ← expect [')'] r
        some (Ty.chan .both e, r)) = _
    simp only [expect, if_pos, Option.bind_eq_bind, Option.bind_some, hm n (by omega), erase]
  | .map k v, s, r, hg, h, hr => by
    simp only [Good] at hg
    simp only [typeText] at h
    split at h
    · rename_i hstr
      simp only [Option.map_eq_some_iff] at h
      obtain ⟨x, hx, h⟩ := h
      obtain ⟨m, hm⟩ := read_text cur v x ([')'] ++ r) hg.2 hx (ends_paren r)
      refine ⟨m + 2, fun n hn => ?_⟩
      obtain ⟨n, rfl, hk⟩ := up hn
      subst h
      have he : erase k = .basic .string := by
        unfold Ty.isString at hstr
        split at hstr
        · simp [erase, Basic.typed]
        · cases hstr
      have hw := word_lit ['s', 'm', 'a', 'p'] '(' (x ++ ([')'] ++ r)) (by decide) (by decide)
      simp only [List.append_assoc, List.cons_append, List.nil_append] at hw hm ⊢
      refine (read_go cur _ _).trans ?_
      simp only [readGo, hw.1, hw.2]
      show (do
        let r ← expect ['('] _
        let (e, r) ← read cur _ r
        let r ← expect [')'] r
        some (Ty.map (.basic .string) e, r)) = _
      simp only [expect, if_pos, Option.bind_eq_bind, Option.bind_some, hm n (by omega), erase, he]
    · split at h
      · rename_i a b ha hb
        have h := Option.some.inj h
        obtain ⟨m, hm⟩ := read_text cur k a ([',', ' '] ++ (b ++ ([')'] ++ r))) hg.1 ha (ends_comma _)
        obtain ⟨m2, hm2⟩ := read_text cur v b ([')'] ++ r) hg.2 hb (ends_paren r)
        refine ⟨m + m2 + 2, fun n hn => ?_⟩
        obtain ⟨n, rfl, hk⟩ := up hn
        subst h
        have hw := word_lit ['m', 'a', 'p'] '(' (a ++ ([',', ' '] ++ (b ++ ([')'] ++ r)))) (by decide) (by decide)
        simp only [List.append_assoc, List.cons_append, List.nil_append] at hw hm hm2 ⊢
        refine (read_go cur _ _).trans ?_
        simp only [readGo, hw.1, hw.2]
        show (do
          let r ← expect ['('] _
          let (k, r) ← read cur _ r
          let r ← expect [',', ' '] r
          let (v, r) ← read cur _ r
          let r ← expect [')'] r
          some (Ty.map k v, r)) = _
        simp only [expect, if_pos, Option.bind_eq_bind, Option.bind_some, hm n (by omega),
          hm2 n (by omega), erase]
      · cases h
  | .interface .nil, s, r, _, h, hr => by
    simp only [typeText] at h
    have h := Option.some.inj h
    refine ⟨0 + 2, fun n hn => ?_⟩
    obtain ⟨n, rfl, hk⟩ := up hn
    subst h
    refine (read_go cur _ _).trans ?_
    have := span_word (w := ['a', 'n', 'y']) (by decide) (stops_ends hr)
    show readGo cur (n + 1) (['a', 'n', 'y'] ++ r) = _
    rw [readGo, this.1, this.2]
    rfl
  | .interface (.cons name va ps rs ms), s, r, hg, h, hr => by
    simp only [typeText, Option.map_eq_some_iff] at h
    obtain ⟨x, hx, h⟩ := h
    obtain ⟨m, hm⟩ := read_methods cur (.cons name va ps rs ms) true x ([')'] ++ r) (by simpa only [Good] using hg) hx
    refine ⟨m + 2, fun n hn => ?_⟩
    obtain ⟨n, rfl, hk⟩ := up hn
    subst h
    have hw := word_lit ['i', 'n', 't', 'e', 'r', 'f', 'a', 'c', 'e'] '(' (['s', 't', 'r', 'u', 'c', 't', '{'] ++ (x ++ (['}', ')'] ++ r))) (by decide) (by decide)
    simp only [List.append_assoc, List.cons_append, List.nil_append] at hw hm ⊢
    refine (read_go cur _ _).trans ?_
    simp only [readGo, hw.1, hw.2]
    show (do
        let r ← expect ['(', 's', 't', 'r', 'u', 'c', 't', '{'] _
        let (ms, r) ← readMethods cur _ true r
        let r ← expect ['}', ')'] r
        some (Ty.interface ms, r)) = _
    simp only [expect, if_pos, Option.bind_eq_bind, Option.bind_some, hm n (by omega), erase]
  | .struct fs, s, r, hg, h, hr => by
    simp only [typeText, Option.map_eq_some_iff] at h
    obtain ⟨x, hx, h⟩ := h
    obtain ⟨m, hm⟩ := read_fields cur fs true x r (by simpa only [Good] using hg) hx
    refine ⟨m + 1, fun n hn => ?_⟩
    obtain ⟨n, rfl, hk⟩ := up hn
    subst h
    have hw := word_lit ['s', 't', 'r', 'u', 'c', 't'] ' ' (['{'] ++ (x ++ (['}'] ++ r))) (by decide) (by decide)
    simp only [List.append_assoc, List.cons_append, List.nil_append] at hw hm ⊢
    refine (read_word cur _ _ _ (by decide) (by decide)).trans ?_
    rw [hw.1, hw.2]
    show (do
        let r ← expect [' ', '{'] _
        let (fs, r) ← readFields cur _ true r
        let r ← expect ['}'] r
        some (Ty.struct fs, r)) = _
    simp only [expect, if_pos, Option.bind_eq_bind, Option.bind_some, hm n (by omega), erase]
  | .tuple _, _, _, hg, _, _ => by simp only [Good] at hg
  | .absent, _, _, hg, _, _ => by simp only [Good] at hg
  | .aliased _ t, s, r, hg, h, hr => by
    simp only [typeText] at h
    simp only [Good] at hg
    simpa only [erase] using read_text cur t s r hg h hr
  | .other, _, _, hg, _, _ => by simp only [Good] at hg
theorem read_params (cur : Str) : ∀ (ts : Tys) (s r : Str), GoodAll cur ts → paramsText cur ts = some s →
    ∃ m, ∀ n, m ≤ n → readParams cur n (s ++ (')' :: r)) = some (eraseAll ts, ')' :: r)
  | .nil, s, r, _, h => by
    simp only [paramsText, Option.some.injEq] at h
    subst h
    refine ⟨0 + 1, fun n hn => ?_⟩
    obtain ⟨n, rfl, hk⟩ := up hn
    simp [readParams, expect, eraseAll]
  | .cons t ts, s, r, hg, h => by
    simp only [paramsText] at h
    simp only [GoodAll] at hg
    split at h
    · rename_i a b ha hb
      have h := Option.some.inj h
      obtain ⟨m, hm⟩ := read_text cur t a (b ++ (')' :: r)) hg.1 ha (params_ends cur ts b r hb)
      obtain ⟨m2, hm2⟩ := read_params cur ts b r hg.2 hb
      refine ⟨m + m2 + 1, fun n hn => ?_⟩
      obtain ⟨n, rfl, hk⟩ := up hn
      subst h
      simp only [List.append_assoc, List.cons_append, List.nil_append] at hm hm2 ⊢
      simp only [readParams, expect, if_pos, Option.bind_eq_bind, Option.bind_some, hm n (by omega),
        hm2 n (by omega), eraseAll]
    · cases h
theorem read_result (cur : Str) : ∀ (ts : Tys) (s r : Str), GoodAll cur ts → resultText cur ts = some s → Ends r →
    ∃ m, ∀ n, m ≤ n → readResult cur n (s ++ r) = some (eraseAll ts, r)
  | .nil, s, r, _, h, hr => by
    simp only [resultText, Option.some.injEq] at h
    subst h
    refine ⟨0 + 1, fun n hn => ?_⟩
    obtain ⟨n, rfl, hk⟩ := up hn
    have := span_word (w := ['v', 'o', 'i', 'd']) (by decide) (stops_ends hr)
    simp only [readResult, this.1, this.2, if_pos, eraseAll]
  | .cons t .nil, s, r, hg, h, hr => by
    simp only [resultText] at h
    simp only [GoodAll] at hg
    obtain ⟨m, hm⟩ := read_text cur t s r hg.1 h hr
    have hv := notVoid cur t s r hg.1 h hr
    refine ⟨m + 1, fun n hn => ?_⟩
    obtain ⟨n, rfl, hk⟩ := up hn
    simp only [readResult, hv, if_false, hm n (by omega), Option.bind_eq_bind, Option.bind_some, eraseAll]
  | .cons _ (.cons _ _), _, _, _, h, _ => by
    simp only [resultText, reduceCtorEq] at h
theorem read_fields (cur : Str) : ∀ (fs : Fields) (first : Bool) (s r : Str), GoodFields cur fs →
    fieldsText cur first fs = some s →
    ∃ m, ∀ n, m ≤ n → readFields cur n first (s ++ ('}' :: r)) = some (eraseFields fs, '}' :: r)
  | .nil, first, s, r, _, h => by
    simp only [fieldsText, Option.some.injEq] at h
    subst h
    refine ⟨0 + 1, fun n hn => ?_⟩
    obtain ⟨n, rfl, hk⟩ := up hn
    simp [readFields, eraseFields]
  | .cons name _ _ t fs, first, s, r, hg, h => by
    simp only [fieldsText] at h
    simp only [GoodFields] at hg
    split at h
    · rename_i a b ha hb
      have h := Option.some.inj h
      obtain ⟨m, hm⟩ := read_text cur t a (b ++ ('}' :: r)) hg.2.1 ha (fields_ends cur fs b r hb)
      obtain ⟨m2, hm2⟩ := read_fields cur fs false b r hg.2.2 hb
      refine ⟨m + m2 + 1, fun n hn => ?_⟩
      obtain ⟨n, rfl, hk⟩ := up hn
      subst h
      have hw := span_word (wordChar_ident hg.1) (stops_cons (c := ':') (by decide) ([' '] ++ (a ++ (b ++ ('}' :: r)))))
      have e1 := expect_append (if first then [] else [',', ' ']) (name ++ ([':', ' '] ++ (a ++ (b ++ ('}' :: r)))))
      have hh : ((if first then [] else [',', ' ']) ++ (name ++ ([':', ' '] ++ (a ++ (b ++ ('}' :: r)))))).head? ≠ some '}' := by
        cases first with
        | false => simp
        | true =>
          obtain ⟨c, x, hx, hcw⟩ := head_ident hg.1 ([':', ' '] ++ (a ++ (b ++ ('}' :: r))))
          simp only [if_true, List.nil_append, hx, List.head?_cons, ne_eq, Option.some.injEq]
          rintro rfl
          exact absurd hcw (by decide)
      simp only [List.append_assoc, List.cons_append, List.nil_append] at hw hm hm2 e1 hh ⊢
      rw [readFields]
      split
      · rename_i hx
        exact absurd hx hh
      · simp only [e1, Option.bind_eq_bind, Option.bind_some, hw.1, hw.2, expect, if_pos, hm n (by omega),
          hm2 n (by omega), eraseFields]
    · cases h
theorem read_methods (cur : Str) : ∀ (ms : Methods) (first : Bool) (s r : Str), GoodMethods cur ms →
    methodsText cur first ms = some s →
    ∃ m, ∀ n, m ≤ n → readMethods cur n first (s ++ ('}' :: r)) = some (eraseMethods ms, '}' :: r)
  | .nil, first, s, r, _, h => by
    simp only [methodsText, Option.some.injEq] at h
    subst h
    refine ⟨0 + 1, fun n hn => ?_⟩
    obtain ⟨n, rfl, hk⟩ := up hn
    simp [readMethods, eraseMethods]
  | .cons name _ ps rs ms, first, s, r, hg, h => by
    simp only [methodsText] at h
    simp only [GoodMethods] at hg
    split at h
    · rename_i p q b hp hq hb
      have h := Option.some.inj h
      obtain ⟨m, hm⟩ := read_params cur ps p ([' '] ++ (q ++ (b ++ ('}' :: r)))) hg.2.1 hp
      obtain ⟨m2, hm2⟩ := read_result cur rs q (b ++ ('}' :: r)) hg.2.2.1 hq (methods_ends cur ms b r hb)
      obtain ⟨m3, hm3⟩ := read_methods cur ms false b r hg.2.2.2 hb
      refine ⟨m + m2 + m3 + 1, fun n hn => ?_⟩
      obtain ⟨n, rfl, hk⟩ := up hn
      subst h
      have hw := span_word (wordChar_ident hg.1) (stops_cons (c := ':') (by decide)
        ([' ', '*', 'c', 'o', 'n', 's', 't', ' ', 'f', 'n', '(', '?', '*', 'g', 'o', '.', 'r', 'o', 'u', 't', 'i', 'n', 'e', ',', '*', 'c', 'o', 'n', 's', 't', ' ', 'a', 'n', 'y', 'o', 'p', 'a', 'q', 'u', 'e'] ++ (p ++ ([')', ' '] ++ (q ++ (b ++ ('}' :: r)))))))
      have e1 := expect_append (if first then [] else [',', ' '])
        (name ++ ([':', ' ', '*', 'c', 'o', 'n', 's', 't', ' ', 'f', 'n', '(', '?', '*', 'g', 'o', '.', 'r', 'o', 'u', 't', 'i', 'n', 'e', ',', '*', 'c', 'o', 'n', 's', 't', ' ', 'a', 'n', 'y', 'o', 'p', 'a', 'q', 'u', 'e'] ++ (p ++ ([')', ' '] ++ (q ++ (b ++ ('}' :: r)))))))
      have e2 := expect_append [':', ' ', '*', 'c', 'o', 'n', 's', 't', ' ', 'f', 'n', '(', '?', '*', 'g', 'o', '.', 'r', 'o', 'u', 't', 'i', 'n', 'e', ',', '*', 'c', 'o', 'n', 's', 't', ' ', 'a', 'n', 'y', 'o', 'p', 'a', 'q', 'u', 'e'] (p ++ ([')', ' '] ++ (q ++ (b ++ ('}' :: r)))))
      have e3 := expect_append [')', ' '] (q ++ (b ++ ('}' :: r)))
      have hh : ((if first then [] else [',', ' ']) ++ (name ++ ([':', ' ', '*', 'c', 'o', 'n', 's', 't', ' ', 'f', 'n', '(', '?', '*', 'g', 'o', '.', 'r', 'o', 'u', 't', 'i', 'n', 'e', ',', '*', 'c', 'o', 'n', 's', 't', ' ', 'a', 'n', 'y', 'o', 'p', 'a', 'q', 'u', 'e'] ++
          (p ++ ([')', ' '] ++ (q ++ (b ++ ('}' :: r)))))))).head? ≠ some '}' := by
        cases first with
        | false => simp
        | true =>
          obtain ⟨c, x, hx, hcw⟩ := head_ident hg.1 ([':', ' ', '*', 'c', 'o', 'n', 's', 't', ' ', 'f', 'n', '(', '?', '*', 'g', 'o', '.', 'r', 'o', 'u', 't', 'i', 'n', 'e', ',', '*', 'c', 'o', 'n', 's', 't', ' ', 'a', 'n', 'y', 'o', 'p', 'a', 'q', 'u', 'e'] ++
            (p ++ ([')', ' '] ++ (q ++ (b ++ ('}' :: r))))))
          simp only [if_true, List.nil_append, hx, List.head?_cons, ne_eq, Option.some.injEq]
          rintro rfl
          exact absurd hcw (by decide)
      simp only [List.append_assoc, List.cons_append, List.nil_append] at hw hm hm2 hm3 e1 e2 e3 hh ⊢
      rw [readMethods]
      split
      · rename_i hx
        exact absurd hx hh
      · simp only [e1, Option.bind_eq_bind, Option.bind_some, hw.1, hw.2, e2, hm n (by omega), e3,
          hm2 n (by omega), hm3 n (by omega), eraseMethods]
    · cases h
end

end Verif.Zgo.Typ
