import Verif.Rest.ParseModel
import Verif.Rest.ParseSpec
import Verif.Rest.TagsProps
/-!
Lemmas about the binding of formats.
-/
namespace Verif.Rest
open Spec

theorem digit?_of {c : Char} (h : '0' ≤ c ∧ c ≤ '9') : digit? c = some (c.toNat - '0'.toNat) := by
  unfold digit?; rw [if_pos h]; rfl

theorem digits?_go (d : Str) (hd : ∀ c ∈ d, '0' ≤ c ∧ c ≤ '9') : ∀ n : Nat,
    d.foldl digitStep (some n) = some (n * 10 ^ d.length + decVal d) := by
  induction d with
  | nil => intro n; simp [decVal]
  | cons c d ih =>
    intro n
    have e : digitStep (some n) c = some (n * 10 + (c.toNat - '0'.toNat)) := by
      simp only [digitStep, digit?_of (hd c (by simp))]
    rw [List.foldl_cons, e]
    rw [ih (fun x hx => hd x (by simp [hx]))]
    congr 1
    rw [decVal, List.length_cons, Nat.pow_succ, Nat.add_mul, Nat.mul_assoc]
    rw [Nat.mul_comm 10 (10 ^ d.length)]
    omega

theorem digits?_eq (d : Str) (hd : ∀ c ∈ d, '0' ≤ c ∧ c ≤ '9') : digits? d = some (decVal d) := by
  unfold digits?; rw [digits?_go d hd 0]; simp

theorem atoi_eq (d : Str) (hne : d ≠ []) (hd : ∀ c ∈ d, '0' ≤ c ∧ c ≤ '9')
    (hr : decVal d < 2 ^ 63) : atoi d = some (decVal d : Int) := by
  unfold atoi
  cases d with
  | nil => exact absurd rfl hne
  | cons c d =>
    have hc := hd c (by simp)
    have h1 : c ≠ '-' := by rintro rfl; revert hc; decide
    have h2 : c ≠ '+' := by rintro rfl; revert hc; decide
    split
    next neg ds heq =>
    split at heq
    · next h => simp at h; exact absurd h.1 h1
    · next h => simp at h; exact absurd h.1 h2
    · simp at heq
      obtain ⟨rfl, rfl⟩ := heq
      rw [if_neg (by simp), digits?_eq _ hd]
      simp only
      rw [if_neg (by simp), if_pos hr]

theorem has_append (a b : Str) (c : Char) : has (a ++ b) c = (has a c || has b c) := by
  simp [has]

theorem has_iff (s : Str) (c : Char) : has s c = true ↔ c ∈ s := by simp [has]

/-- The number a format seeks to. -/
def placeTarget (last : Int) : Place → Int
  | .next => last + 1
  | .nth d => decVal d

theorem seek_place (p : Parser) (pl : Place) (h : pl.Clean) :
    p.seek pl.text = .ok { p with pos := placeTarget p.pos pl } := by
  cases pl with
  | next => rfl
  | nth d =>
    obtain ⟨h1, h2, h3⟩ := h
    have e : Place.text (.nth d) = '%' :: '[' :: (d ++ [']', 'v']) := by simp [Place.text]
    rw [e, Parser.seek]
    have hdl : (d ++ [']', 'v']).dropLast = d ++ [']'] := by
      rw [show d ++ [']', 'v'] = (d ++ [']']) ++ ['v'] by simp, List.dropLast_concat]
    have hno : ']' ∉ d := fun hm => by have := h2 _ hm; revert this; decide
    simp only [hdl]
    rw [if_neg (by simp [has]), cut_append _ _ _ hno]
    simp only [atoi_eq d h1 h2 h3, placeTarget]

/-- Binding a named format moves to its argument and binds that. -/
theorem parseParam_slot (p : Parser) (n : Str) (pl : Place) (args : List Ty) (loc : Loc)
    (hn : '=' ∉ n) (hp : pl.Clean) :
    p.parseParam (n ++ '=' :: pl.text) args loc =
      { p with pos := placeTarget p.pos pl }.bindArg args n loc := by
  have hl : pl.text.getLast? = some 'v' := by
    cases pl with
    | next => rfl
    | nth d =>
      have e : Place.text (.nth d) = ('%' :: '[' :: d ++ [']']) ++ ['v'] := by simp [Place.text]
      rw [e, List.getLast?_append]; rfl
  obtain ⟨rest, hr⟩ : ∃ rest, pl.text = '%' :: rest := by
    cases pl with
    | next => exact ⟨['v'], rfl⟩
    | nth d => exact ⟨'[' :: (d ++ [']', 'v']), by simp [Place.text]⟩
  unfold Parser.parseParam
  rw [if_pos (Or.inl (by simp [has]))]
  simp only [cut_append _ _ _ hn, if_true]
  rw [hr]
  simp only [ne_eq, not_true, if_false]
  rw [← hr, if_neg (by rw [hl]; simp), seek_place p pl hp]
  rfl

/-! ## All formats in order -/

/-- Bindings of a sequence of slots. -/
def Parser.bindAll (p : Parser) (args : List Ty) : List Slot → R Parser
  | [] => .ok p
  | s :: ss =>
    ({ p with pos := placeTarget p.pos s.place }.bindArg args s.name (.at s.inPath !s.inPath)).bind
      fun p => p.bindAll args ss

theorem bindAll_append (args : List Ty) (a b : List Slot) (p : Parser) :
    p.bindAll args (a ++ b) = (p.bindAll args a).bind (fun p => p.bindAll args b) := by
  induction a generalizing p with
  | nil => rfl
  | cons s ss ih =>
    simp only [List.cons_append, Parser.bindAll]
    cases h : ({ p with pos := placeTarget p.pos s.place }.bindArg args s.name (.at s.inPath !s.inPath)) with
    | ok q => simp only [R.bind, ih]
    | err => rfl
    | panic => rfl

theorem read_lit (h : Heap) (xs : List Nat) : (h.lit xs).1.read (h.lit xs).2 = xs := by
  simp [Heap.lit, Heap.read]

theorem read_grow (h : Heap) (x : List Nat) (s : Slice) (hs : s.arr < h.length) :
    Heap.read (h ++ [x]) s = h.read s := by
  simp [Heap.read, List.getElem?_append_left hs]

/-- What a parser knows after some uses. -/
structure Knows (args : List Ty) (us : List Use) (p : Parser) : Prop where
  len : p.list.length = args.length
  param : ∀ j, j < args.length → ∃ q, p.list[j]? = some q ∧
    q.loc = .at (us.any (fun u => u.1 == j + 1 && u.2.2)) (us.any (fun u => u.1 == j + 1 && !u.2.2)) ∧
    ((∀ u ∈ us, u.1 ≠ j + 1) → q.name = []) ∧
    (∀ u ∈ us, u.1 = j + 1 → q.name = u.2.1 ∧ q.ty = args[j]? ∧ q.index.arr < p.heap.length ∧
      p.heap.read q.index = [j])

theorem knows_new (args : List Ty) : Knows args [] (newParser args) := by
  refine ⟨by simp [newParser], ?_⟩
  intro j hj
  refine ⟨{}, ?_, rfl, fun _ => rfl, by simp⟩
  simp [newParser, hj]

theorem knows_bind (args : List Ty) (us : List Use) (p : Parser) (hk : Knows args us p)
    (t : Nat) (n : Str) (inPath : Bool) (hn : n ≠ [])
    (hfit : UsesFit args.length (us ++ [(t, n, inPath)])) :
    ∃ q, { p with pos := (t : Int) }.bindArg args n (.at inPath !inPath) = .ok q ∧
      Knows args (us ++ [(t, n, inPath)]) q ∧ q.pos = t ∧ q.static = p.static := by
  have ht := hfit.1 (t, n, inPath) (by simp)
  simp only at ht
  obtain ⟨ex, hex, hloc, hnone, hsome⟩ := hk.param (t - 1) (by omega)
  have hlt : t - 1 < p.list.length := by rw [hk.len]; omega
  unfold Parser.bindArg
  simp only
  rw [if_neg (by omega), if_neg (by omega)]
  have e1 : ((t : Int) - 1).toNat = t - 1 := by omega
  rw [e1, hex]
  simp only
  have hname : ex.name = [] ∨ ex.name = n := by
    by_cases hu : ∃ u ∈ us, u.1 = t - 1 + 1
    · obtain ⟨u, hu, hut⟩ := hu
      right
      rw [(hsome u hu hut).1]
      exact hfit.2 u (by simp [hu]) (t, n, inPath) (by simp) (by simp; omega)
    · left
      exact hnone (fun u hm h => hu ⟨u, hm, h⟩)
  rw [if_neg (by rintro ⟨h1, h2⟩; rcases hname with h | h; exact h1 h; exact h2 h)]
  refine ⟨_, rfl, ?_, rfl, rfl⟩
  refine ⟨by simp [hk.len], ?_⟩
  intro j hj
  by_cases hjt : j = t - 1
  · subst hjt
    refine ⟨_, List.getElem?_set_self hlt, ?_, ?_, ?_⟩
    · simp only [hloc, Loc.or, List.any_append, List.any_cons, List.any_nil, Bool.or_false]
      have : t - 1 + 1 = t := by omega
      cases inPath <;> simp [this]
    · intro h
      exact absurd (by simp; omega) (h (t, n, inPath) (by simp))
    · intro u hu hut
      have hun : (if ex.name = [] then n else ex.name) = u.2.1 := by
        have : u.2.1 = n := hfit.2 u hu (t, n, inPath) (by simp) (by simp; omega)
        rw [this]
        rcases hname with h | h <;> simp [h]
      refine ⟨hun, rfl, ?_, ?_⟩
      · simp [Heap.lit]
      · exact read_lit _ _
  · obtain ⟨q, h1, h2, h3, h4⟩ := hk.param j hj
    have hne : t ≠ j + 1 := by omega
    refine ⟨q, ?_, ?_, ?_, ?_⟩
    · simp only
      rw [List.getElem?_set_ne (by omega)]
      exact h1
    · rw [h2]
      simp [List.any_append, hne]
    · intro h
      exact h3 (fun u hu => h u (by simp [hu]))
    · intro u hu hut
      rcases List.mem_append.mp hu with hu | hu
      · obtain ⟨a, b, c, d⟩ := h4 u hu hut
        refine ⟨a, b, ?_, ?_⟩
        · simp [Heap.lit]; omega
        · simp only [Heap.lit]
          rw [read_grow _ _ _ c, d]
      · simp at hu; subst hu; exact absurd hut hne

/-- Targets in order, as the parser's position moves. -/
theorem usesOf_cons (last : Nat) (s : Slot) (ss : List Slot) :
    ∃ t : Nat, (t : Int) = placeTarget last s.place ∧
      targets last ((s :: ss).map Slot.place) = t :: targets t (ss.map Slot.place) ∧
      (targets last ((s :: ss).map Slot.place)).zip ((s :: ss).map (fun s => (s.name, s.inPath))) =
        (t, s.name, s.inPath) ::
          (targets t (ss.map Slot.place)).zip (ss.map (fun s => (s.name, s.inPath))) := by
  cases hp : s.place with
  | next => exact ⟨last + 1, by simp [placeTarget], by simp [hp, targets], by simp [hp, targets]⟩
  | nth d => exact ⟨decVal d, by simp [placeTarget], by simp [hp, targets], by simp [hp, targets]⟩

theorem bindAll_knows (args : List Ty) (ss : List Slot) (hn : ∀ s ∈ ss, s.name ≠ []) :
    ∀ (last : Nat) (us : List Use) (p : Parser), p.pos = last → Knows args us p →
    UsesFit args.length (us ++ (targets last (ss.map Slot.place)).zip (ss.map (fun s => (s.name, s.inPath)))) →
    ∃ q, p.bindAll args ss = .ok q ∧ q.static = p.static ∧
      q.pos = (((targets last (ss.map Slot.place)).getLastD last : Nat) : Int) ∧
      Knows args (us ++ (targets last (ss.map Slot.place)).zip (ss.map (fun s => (s.name, s.inPath)))) q := by
  induction ss with
  | nil => intro last us p hpos hk _; exact ⟨p, rfl, rfl, by simp [targets, hpos], by simpa [targets] using hk⟩
  | cons s ss ih =>
    intro last us p hpos hk hfit
    obtain ⟨t, ht, hts, he⟩ := usesOf_cons last s ss
    rw [he] at hfit ⊢
    rw [hts]
    rw [Parser.bindAll, hpos, ← ht]
    have hfit1 : UsesFit args.length (us ++ [(t, s.name, s.inPath)]) := by
      have hsub : ∀ u ∈ us ++ [(t, s.name, s.inPath)],
          u ∈ us ++ (t, s.name, s.inPath) :: (targets t (ss.map Slot.place)).zip (ss.map (fun s => (s.name, s.inPath))) := by
        intro u hu
        rcases List.mem_append.mp hu with hu | hu
        · exact List.mem_append_left _ hu
        · simp at hu; subst hu; simp
      exact ⟨fun u hu => hfit.1 u (hsub u hu), fun u hu v hv => hfit.2 u (hsub u hu) v (hsub v hv)⟩
    obtain ⟨q, h1, h2, h3, h4⟩ := knows_bind args us p hk t s.name s.inPath (hn s (by simp)) hfit1
    rw [h1]
    simp only [R.bind]
    obtain ⟨q', h5, h6, h7, h8⟩ := ih (fun x hx => hn x (by simp [hx])) t _ q h3 h2 (by simpa using hfit)
    refine ⟨q', h5, by rw [h6, h4], ?_, by simpa using h8⟩
    rw [h7]
    cases targets t (ss.map Slot.place) <;> simp [List.getLastD]

/-! ## Reading paths and queries -/

theorem split_prefix (sep : Char) (a s : Str) (h : sep ∉ a) :
    (split sep (a ++ s)).tail = (split sep s).tail := by
  induction a with
  | nil => rfl
  | cons c a ih =>
    simp only [List.mem_cons, not_or] at h
    rw [List.cons_append, split, if_neg (fun e => h.1 e.symm)]
    have := ih h.2
    cases hs : split sep (a ++ s) with
    | nil => exact absurd hs (split_ne_nil _ _)
    | cons x xs => rw [hs] at this; simpa using this

theorem split_head_append (sep : Char) (a s : Str) (h : sep ∉ a) :
    ∃ x, split sep (a ++ s) = (a ++ x) :: (split sep s).tail := by
  induction a with
  | nil =>
    cases hs : split sep s with
    | nil => exact absurd hs (split_ne_nil _ _)
    | cons x xs => exact ⟨x, by simp [hs]⟩
  | cons c a ih =>
    simp only [List.mem_cons, not_or] at h
    obtain ⟨x, hx⟩ := ih h.2
    refine ⟨x, ?_⟩
    rw [List.cons_append, split, if_neg (fun e => h.1 e.symm), hx]
    rfl

theorem place_text_plain (p : Place) (h : p.Clean) (c : Char)
    (hc : c ∈ ['{', '}', '?', '&', '=']) : c ∉ p.text := by
  cases p with
  | next => revert c; decide
  | nth d =>
    intro hm
    have h2 : c ∉ d := by
      intro hd
      have := h.2.1 c hd
      simp at hc
      rcases hc with rfl | rfl | rfl | rfl | rfl <;> (revert this; decide)
    simp [Place.text, h2] at hm
    simp at hc
    rcases hc with rfl | rfl | rfl | rfl | rfl <;> simp at hm

theorem braced_path (ps : List Piece) (hc : ∀ p ∈ ps, p.Clean) :
    ∃ cs, (split '{' (ps.map Piece.write).flatten).tail = cs ∧
      (cs.all (fun c => has c '}')) = true ∧
      cs.map (fun c => (cut '}' c).1) = (pathSlots ps).map Slot.text := by
  refine ⟨_, rfl, ?_⟩
  induction ps with
  | nil => simp [split, pathSlots]
  | cons p ps ih =>
    have ih := ih (fun x hx => hc x (by simp [hx]))
    have hp := hc p (by simp)
    cases p with
    | text s =>
      simp only [List.map_cons, Piece.write, List.flatten_cons, pathSlots]
      rw [split_prefix _ _ _ hp.1]
      exact ih
    | slot n pl =>
      obtain ⟨hn, hpl⟩ := hp
      have hn1 : '{' ∉ n := hn.2.2.2.1
      have hn2 : '}' ∉ n := hn.2.2.2.2.1
      have hno : '{' ∉ n ++ '=' :: pl.text ++ ['}'] := by
        have := place_text_plain pl hpl '{' (by simp)
        simp [hn1, this]
      have hno2 : '}' ∉ n ++ '=' :: pl.text := by
        have := place_text_plain pl hpl '}' (by simp)
        simp [hn2, this]
      have e : (List.map Piece.write (Piece.slot n pl :: ps)).flatten =
          '{' :: ((n ++ '=' :: pl.text ++ ['}']) ++ (ps.map Piece.write).flatten) := by
        simp [Piece.write]
      rw [e, split, if_pos rfl]
      obtain ⟨x, hx⟩ := split_head_append '{' (n ++ '=' :: pl.text ++ ['}'])
        (ps.map Piece.write).flatten hno
      simp only [List.tail_cons, hx, List.all_cons, List.map_cons, pathSlots, Slot.text]
      rw [ih.1, ih.2]
      refine ⟨by simp [has], ?_⟩
      congr 1
      rw [show (n ++ '=' :: pl.text ++ ['}'] ++ x) = (n ++ '=' :: pl.text) ++ '}' :: x by simp,
        cut_append _ _ _ hno2]

theorem split_query : ∀ (qs : List (Str × Place)), qs ≠ [] →
    (∀ q ∈ qs, CleanName q.1 ∧ q.2.Clean) →
    split '&' (writeQuery qs) = qs.map (fun q => q.1 ++ '=' :: q.2.text)
  | [], h, _ => absurd rfl h
  | [(n, p)], _, h => by
    obtain ⟨h1, h2⟩ := h (n, p) (by simp)
    have := place_text_plain p h2 '&' (by simp)
    have h3 := h1.2.2.2.2.2.2
    exact split_none _ _ (by simp [writeQuery] at h3 this ⊢; exact ⟨h3, this⟩)
  | (n, p) :: y :: xs, _, h => by
    obtain ⟨h1, h2⟩ := h (n, p) (by simp)
    have := place_text_plain p h2 '&' (by simp)
    have h3 := h1.2.2.2.2.2.2
    rw [writeQuery, split_append _ _ _ (by simp at h3 this ⊢; exact ⟨h3, this⟩),
      split_query (y :: xs) (by simp) (fun q hq => h q (by simp [hq]))]
    simp

theorem parseParams_slots (args : List Ty) (ss : List Slot)
    (hs : ∀ s ∈ ss, '=' ∉ s.name ∧ s.place.Clean ∧ s.inPath = true) : ∀ p : Parser,
    p.parseParams (ss.map Slot.text) args (.at true false) = p.bindAll args ss := by
  induction ss with
  | nil => intro p; rfl
  | cons s ss ih =>
    intro p
    obtain ⟨h1, h2, h3⟩ := hs s (by simp)
    simp only [List.map_cons, Parser.parseParams, Slot.text]
    rw [parseParam_slot p s.name s.place args _ h1 h2, Parser.bindAll, h3]
    congr 1
    funext q
    exact ih (fun x hx => hs x (by simp [hx])) q

theorem parseQueryParams_slots (args : List Ty) (qs : List (Str × Place))
    (hs : ∀ q ∈ qs, CleanName q.1 ∧ q.2.Clean) : ∀ p : Parser,
    p.parseQueryParams (qs.map (fun q => q.1 ++ '=' :: q.2.text)) args =
      p.bindAll args (qs.map (fun q => ⟨q.1, q.2, false⟩)) := by
  induction qs with
  | nil => intro p; rfl
  | cons q qs ih =>
    intro p
    obtain ⟨h1, h2⟩ := hs q (by simp)
    have hh : (q.1 ++ '=' :: q.2.text).head? ≠ some '%' := by
      have := h1.1
      have h3 := h1.2.1
      cases hq : q.1 with
      | nil => exact absurd hq this
      | cons c cs => rw [hq] at h3; simpa using h3
    simp only [List.map_cons, Parser.parseQueryParams]
    rw [if_neg hh, parseParam_slot p q.1 q.2 args _ h1.2.2.1 h2, Parser.bindAll]
    congr 1
    funext r
    exact ih (fun x hx => hs x (by simp [hx])) r

theorem pathSlots_clean (ps : List Piece) (hc : ∀ p ∈ ps, p.Clean) :
    ∀ s ∈ pathSlots ps, CleanName s.name ∧ s.place.Clean ∧ s.inPath = true := by
  induction ps with
  | nil => simp [pathSlots]
  | cons p ps ih =>
    have ih := ih (fun x hx => hc x (by simp [hx]))
    have hp := hc p (by simp)
    cases p with
    | text s => simpa [pathSlots] using ih
    | slot n pl =>
      intro s hs
      simp only [pathSlots, List.mem_cons] at hs
      rcases hs with rfl | hs
      · exact ⟨hp.1, hp.2, rfl⟩
      · exact ih s hs

theorem no_brace_no_slots (ps : List Piece) (h : '{' ∉ (ps.map Piece.write).flatten) :
    pathSlots ps = [] := by
  induction ps with
  | nil => rfl
  | cons p ps ih =>
    cases p with
    | text s =>
      rw [List.map_cons, List.flatten_cons, List.mem_append, not_or] at h
      exact ih h.2
    | slot n pl => simp [Piece.write] at h

theorem parsePath_slots (args : List Ty) (ps : List Piece) (hc : ∀ p ∈ ps, p.Clean) (p : Parser) :
    p.parsePath (writePath ps) args = p.bindAll args (pathSlots ps) := by
  unfold writePath Parser.parsePath
  simp only
  rw [if_neg (by simp)]
  by_cases h : '{' ∈ (ps.map Piece.write).flatten
  · rw [if_pos (by rw [has_iff]; simp at h ⊢; exact h)]
    obtain ⟨cs, h1, h2, h3⟩ := braced_path ps hc
    have : braced ('/' :: (ps.map Piece.write).flatten) = some ((pathSlots ps).map Slot.text) := by
      unfold braced
      simp only [List.drop_succ_cons, List.drop_zero, h1]
      rw [if_pos h2, h3]
    rw [this]
    exact parseParams_slots args _ (fun s hs =>
      ⟨(pathSlots_clean ps hc s hs).1.2.2.1, (pathSlots_clean ps hc s hs).2⟩) p
  · rw [if_neg (by rw [has_iff]; simp at h ⊢; exact h), no_brace_no_slots ps h]
    rfl

theorem writePath_no_query (ps : List Piece) (hc : ∀ p ∈ ps, p.Clean) : '?' ∉ writePath ps := by
  unfold writePath
  intro h
  rcases List.mem_cons.mp h with h | h
  · revert h; decide
  · rw [List.mem_flatten] at h
    obtain ⟨l, hl, hm⟩ := h
    obtain ⟨p, hp, rfl⟩ := List.mem_map.mp hl
    have hp := hc p hp
    cases p with
    | text s => exact hp.2.2 hm
    | slot n pl =>
      have h1 := hp.1.2.2.2.2.2.1
      have h2 := place_text_plain pl hp.2 '?' (by simp)
      simp [Piece.write] at hm
      rcases hm with h | h
      · exact h1 h
      · exact h2 h

/-- A tag of named formats binds them in order. -/
theorem parseTag_slots (args : List Ty) (ps : List Piece) (qs : List (Str × Place))
    (hp : ∀ p ∈ ps, p.Clean) (hq : ∀ q ∈ qs, CleanName q.1 ∧ q.2.Clean) (rules : List Str) :
    parseTag args (writeBoth ps qs) rules =
      ((newParser args).bindAll args (slotsOf ps qs)).bind (fun p => p.parseBody args rules) := by
  have hno := writePath_no_query ps hp
  unfold parseTag writeBoth slotsOf
  rw [bindAll_append]
  by_cases h : qs = []
  · subst h
    simp only [if_true, List.append_nil, cut_none _ _ hno, parsePath_slots args ps hp]
    cases (newParser args).bindAll args (pathSlots ps) <;> rfl
  · simp only [if_neg h, cut_append _ _ _ hno, parsePath_slots args ps hp, if_true]
    cases (newParser args).bindAll args (pathSlots ps) with
    | ok p => simp only [R.bind, Parser.parseQuery, split_query qs h hq, parseQueryParams_slots args qs hq]
    | err => rfl
    | panic => rfl

/-! ## The body -/

/-- How many parameters of a list are in the body. -/
def bodyCount (qs : List Param) : Nat := (qs.filter (fun q => decide (q.loc = Loc.body))).length

theorem bodyCount_cons (q : Param) (qs : List Param) :
    bodyCount (q :: qs) = (if q.loc = Loc.body then 1 else 0) + bodyCount qs := by
  unfold bodyCount
  by_cases h : q.loc = Loc.body <;> simp [h]; omega

theorem bodyParams_spec (args : List Ty) (rules : List Str) : ∀ (qs : List Param) (i : Nat)
    (left : List Str) (h : Heap), (∀ k : Nat, ∀ q, qs[k]? = some q → q.loc = Loc.body → i + k < args.length) →
    (rules = [] ∨ bodyCount qs ≤ left.length) →
    ∃ list h', bodyParams args rules qs i left h = .ok (list, h') ∧ list.length = qs.length ∧
      h.length ≤ h'.length ∧ (∀ s : Slice, s.arr < h.length → h'.read s = h.read s) ∧
      ∀ (k : Nat) q, qs[k]? = some q → ∃ q', list[k]? = some q' ∧ (q.loc ≠ Loc.body → q' = q) ∧
        (q.loc = Loc.body → q'.loc = q.loc ∧ q'.ty = args[i + k]? ∧ h'.read q'.index = [i + k] ∧
          q'.name = if rules = [] then q.name else (left[bodyCount (qs.take k)]?).getD []) := by
  intro qs
  induction qs with
  | nil => intro i left h _ _; exact ⟨[], h, rfl, rfl, Nat.le_refl _, fun _ _ => rfl, by simp⟩
  | cons q qs ih =>
    intro i left h hargs hrules
    have hargs' : ∀ k : Nat, ∀ q, qs[k]? = some q → q.loc = Loc.body → i + 1 + k < args.length := by
      intro k q' hq hb
      have := hargs (k + 1) q' (by simpa using hq) hb
      omega
    unfold bodyParams
    by_cases hb : q.loc = Loc.body
    · rw [if_pos hb]
      have hi : i < args.length := hargs 0 q (by simp) hb
      rw [List.getElem?_eq_getElem hi]
      simp only
      rw [bodyCount_cons, if_pos hb] at hrules
      by_cases hr : rules = []
      · rw [if_pos hr]
        obtain ⟨list, h', h1, h2, h3, h4, h5⟩ := ih (i + 1) left (h.lit [i]).1 hargs' (Or.inl hr)
        rw [h1]
        refine ⟨_, h', rfl, by simp [h2], ?_, ?_, ?_⟩
        · refine Nat.le_trans ?_ h3; simp [Heap.lit]
        · intro s hs
          rw [h4 s (by simp [Heap.lit]; omega)]
          exact read_grow _ _ _ hs
        · intro k q' hk
          cases k with
          | zero =>
            simp at hk; subst hk
            refine ⟨_, rfl, fun h => absurd hb h, fun _ => ⟨rfl, by simp [hi], ?_, by simp [hr]⟩⟩
            rw [h4 _ (by simp [Heap.lit])]
            exact read_lit _ _
          | succ k =>
            obtain ⟨q'', a, b, c⟩ := h5 k q' (by simpa using hk)
            refine ⟨q'', by simpa using a, b, fun hb => ?_⟩
            obtain ⟨c1, c2, c3, c4⟩ := c hb
            refine ⟨c1, by rw [c2]; congr 1; omega, by rw [c3]; congr 1; omega, ?_⟩
            rw [c4, if_pos hr, if_pos hr]
      · rw [if_neg hr]
        have hlen : 1 + bodyCount qs ≤ left.length := by rcases hrules with h | h; exact absurd h hr; exact h
        cases left with
        | nil => simp at hlen
        | cons r left =>
          simp only
          obtain ⟨list, h', h1, h2, h3, h4, h5⟩ := ih (i + 1) left (h.lit [i]).1 hargs'
            (Or.inr (by simp at hlen; omega))
          rw [h1]
          refine ⟨_, h', rfl, by simp [h2], ?_, ?_, ?_⟩
          · refine Nat.le_trans ?_ h3; simp [Heap.lit]
          · intro s hs
            rw [h4 s (by simp [Heap.lit]; omega)]
            exact read_grow _ _ _ hs
          · intro k q' hk
            cases k with
            | zero =>
              simp at hk; subst hk
              refine ⟨_, rfl, fun h => absurd hb h, fun _ => ⟨rfl, by simp [hi], ?_, by simp [hr, bodyCount]⟩⟩
              rw [h4 _ (by simp [Heap.lit])]
              exact read_lit _ _
            | succ k =>
              obtain ⟨q'', a, b, c⟩ := h5 k q' (by simpa using hk)
              refine ⟨q'', by simpa using a, b, fun hb' => ?_⟩
              obtain ⟨c1, c2, c3, c4⟩ := c hb'
              refine ⟨c1, by rw [c2]; congr 1; omega, by rw [c3]; congr 1; omega, ?_⟩
              rw [c4, if_neg hr, if_neg hr, List.take_succ_cons, bodyCount_cons, if_pos hb,
                Nat.add_comm 1, List.getElem?_cons_succ]
    · rw [if_neg hb]
      rw [bodyCount_cons, if_neg hb, Nat.zero_add] at hrules
      obtain ⟨list, h', h1, h2, h3, h4, h5⟩ := ih (i + 1) left h hargs' hrules
      rw [h1]
      refine ⟨_, h', rfl, by simp [h2], h3, h4, ?_⟩
      intro k q' hk
      cases k with
      | zero =>
        simp at hk; subst hk
        exact ⟨_, rfl, fun _ => rfl, fun h => absurd h hb⟩
      | succ k =>
        obtain ⟨q'', a, b, c⟩ := h5 k q' (by simpa using hk)
        refine ⟨q'', by simpa using a, b, fun hb' => ?_⟩
        obtain ⟨c1, c2, c3, c4⟩ := c hb'
        refine ⟨c1, by rw [c2]; congr 1; omega, by rw [c3]; congr 1; omega, ?_⟩
        rw [c4, List.take_succ_cons, bodyCount_cons, if_neg hb, Nat.zero_add]

theorem bodyParams_short (args : List Ty) (rules : List Str) (hr : rules ≠ []) : ∀ (qs : List Param) (i : Nat)
    (left : List Str) (h : Heap), (∀ k : Nat, ∀ q, qs[k]? = some q → q.loc = Loc.body → i + k < args.length) →
    left.length < bodyCount qs → bodyParams args rules qs i left h = .err := by
  intro qs
  induction qs with
  | nil => intro i left h _ hc; simp [bodyCount] at hc
  | cons q qs ih =>
    intro i left h hargs hc
    have hargs' : ∀ k : Nat, ∀ q, qs[k]? = some q → q.loc = Loc.body → i + 1 + k < args.length := by
      intro k q' hq hb
      have := hargs (k + 1) q' (by simpa using hq) hb
      omega
    rw [bodyCount_cons] at hc
    unfold bodyParams
    by_cases hb : q.loc = Loc.body
    · rw [if_pos hb]
      have hi : i < args.length := hargs 0 q (by simp) hb
      rw [List.getElem?_eq_getElem hi]
      simp only
      rw [if_neg hr]
      cases left with
      | nil => rfl
      | cons r left =>
        simp only
        rw [ih (i + 1) left _ hargs' (by simp [hb] at hc; omega)]
        rfl
    · rw [if_neg hb, ih (i + 1) left h hargs' (by simpa [hb] using hc)]
      rfl

end Verif.Rest
