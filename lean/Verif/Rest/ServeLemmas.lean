import Verif.Rest.ServeSpec
/-!
# Lemmas: how the client's path and query arrive
-/
namespace Verif.Rest.Serve

open Verif.Rest Verif.Rest.Spec

variable {V H : Type}

/-! ## Replacing in the path -/

theorem dropPrefix_self (a b : Str) : dropPrefix a (a ++ b) = some b := by
  induction a with
  | nil => cases b <;> rfl
  | cons c a ih => simp [dropPrefix, ih]

theorem replaceFirst_skip (pat val a b : Str) (h : '{' ∉ a) :
    replaceFirst ('{' :: pat) val (a ++ b) = a ++ replaceFirst ('{' :: pat) val b := by
  induction a with
  | nil => rfl
  | cons c a ih =>
    rw [List.mem_cons, not_or] at h
    rw [List.cons_append, replaceFirst]
    simp only [dropPrefix, if_neg h.1]
    rw [ih h.2]; rfl

theorem dropPrefix_name {n m b : Str} (hn : '}' ∉ n) (hm : '}' ∉ m) (hne : n ≠ m) :
    dropPrefix (n ++ ['}']) (m ++ '}' :: b) = none := by
  induction n generalizing m with
  | nil =>
    cases m with
    | nil => exact absurd rfl hne
    | cons c m =>
      rw [List.mem_cons, not_or] at hm
      simp [dropPrefix, hm.1]
  | cons d n ih =>
    rw [List.mem_cons, not_or] at hn
    cases m with
    | nil => simp [dropPrefix, Ne.symm hn.1]
    | cons c m =>
      rw [List.mem_cons, not_or] at hm
      simp only [List.cons_append, dropPrefix]
      split
      · next e => subst e; exact ih hn.2 hm.2 (fun e => hne (by rw [e]))
      · rfl

/-- The assignment of texts to names. -/
def textFor (asg : List (Str × Str)) (n : Str) : Option Str :=
  (asg.find? (fun p => p.1 = n)).map Prod.snd

/-- A segment of the path while the names in `asg` have been replaced. -/
def fillWith (asg : List (Str × Str)) : Seg → Str
  | .lit l => l
  | .par n => match textFor asg n with
    | some t => pathEscape t
    | none => '{' :: n ++ ['}']

theorem textFor_snoc (asg : List (Str × Str)) (n t m : Str) :
    textFor (asg ++ [(n, t)]) m = match textFor asg m with
      | some x => some x
      | none => if n = m then some t else none := by
  unfold textFor
  rw [List.find?_append]
  cases h : asg.find? (fun p => decide (p.1 = m)) with
  | some x => rfl
  | none =>
    by_cases e : n = m
    · subst e; simp
    · have : decide (n = m) = false := by simpa using e
      simp [this, e]

/-- A segment that is not the one being replaced is passed over. -/
theorem replace_other (asg : List (Str × Str)) (hb : ∀ p ∈ asg, ∀ c ∈ p.2, IsByte c)
    (n v : Str) (hn : '}' ∉ n) (s : Seg)
    (hlit : ∀ l, s = .lit l → '{' ∉ l) (hpar : ∀ m, s = .par m → '{' ∉ m ∧ '}' ∉ m ∧ (m ≠ n ∨ textFor asg m ≠ none))
    (b : Str) :
    replaceFirst ('{' :: n ++ ['}']) v (fillWith asg s ++ b) =
      fillWith asg s ++ replaceFirst ('{' :: n ++ ['}']) v b := by
  cases s with
  | lit l => exact replaceFirst_skip _ _ _ _ (hlit l rfl)
  | par m =>
    obtain ⟨h1, h2, h3⟩ := hpar m rfl
    unfold fillWith
    dsimp only
    cases ht : textFor asg m with
    | some t =>
      have ht' : ∀ c ∈ t, IsByte c := by
        unfold textFor at ht
        obtain ⟨p, hp, rfl⟩ := Option.map_eq_some_iff.mp ht
        exact hb p (List.mem_of_find?_eq_some hp)
      exact replaceFirst_skip _ _ _ _ (pathEscape_not_mem t ht' '{' (by decide) (by decide))
    | none =>
      have hne : n ≠ m := by
        rcases h3 with h | h
        · exact Ne.symm h
        · exact absurd ht h
      dsimp only
      have e : ('{' :: m ++ ['}']) ++ b = '{' :: (m ++ ['}'] ++ b) := by simp
      rw [e, replaceFirst]
      have : dropPrefix ('{' :: n ++ ['}']) ('{' :: (m ++ ['}'] ++ b)) = none := by
        simp only [List.cons_append, dropPrefix, if_true]
        have := dropPrefix_name (b := b) hn h2 hne
        simpa using this
      rw [this]
      dsimp only
      have hs := replaceFirst_skip (n ++ ['}']) v (m ++ ['}']) b (by simp [h1])
      rw [← List.cons_append] at hs
      rw [hs]; simp

theorem fillWith_snoc_other (asg : List (Str × Str)) (n t : Str) (s : Seg)
    (h : ∀ m, s = .par m → m ≠ n ∨ textFor asg m ≠ none) : fillWith (asg ++ [(n, t)]) s = fillWith asg s := by
  cases s with
  | lit l => rfl
  | par m =>
    unfold fillWith
    dsimp only
    rw [textFor_snoc]
    cases e : textFor asg m with
    | some x => rfl
    | none =>
      rcases h m rfl with h | h
      · rw [if_neg (Ne.symm h)]
      · exact absurd e h

theorem mem_parNames {n : Str} {ss : List Seg} : n ∈ parNames ss ↔ Seg.par n ∈ ss := by
  induction ss with
  | nil => simp [parNames]
  | cons s ss ih => cases s <;> simp [parNames, ih]

/-- Clean segments for replacing. -/
def Repl (ss : List Seg) : Prop :=
  (∀ l, Seg.lit l ∈ ss → '{' ∉ l) ∧ (∀ m, Seg.par m ∈ ss → '{' ∉ m ∧ '}' ∉ m)

/-- One replacement. -/
theorem replace_path (asg : List (Str × Str)) (hb : ∀ p ∈ asg, ∀ c ∈ p.2, IsByte c)
    (n t : Str) (hnone : textFor asg n = none) :
    ∀ (ss : List Seg), Repl ss → (parNames ss).Nodup → n ∈ parNames ss →
      replaceFirst ('{' :: n ++ ['}']) (pathEscape t) (Spec.pathText (ss.map (fillWith asg))) =
        Spec.pathText (ss.map (fillWith (asg ++ [(n, t)])))
  | [], _, _, h => by simp [parNames] at h
  | s :: ss, hr, hd, hm => by
    have hr' : Repl ss := ⟨fun l h => hr.1 l (List.mem_cons_of_mem _ h),
      fun m h => hr.2 m (List.mem_cons_of_mem _ h)⟩
    have hn : '{' ∉ n ∧ '}' ∉ n := hr.2 n (mem_parNames.mp hm)
    simp only [List.map_cons, Spec.pathText]
    have slash : ∀ x, replaceFirst ('{' :: n ++ ['}']) (pathEscape t) ('/' :: x) =
        '/' :: replaceFirst ('{' :: n ++ ['}']) (pathEscape t) x := by
      intro x
      have := replaceFirst_skip (n ++ ['}']) (pathEscape t) ['/'] x (by decide)
      simpa using this
    show replaceFirst ('{' :: n ++ ['}']) (pathEscape t)
      ('/' :: (fillWith asg s ++ Spec.pathText (ss.map (fillWith asg)))) =
      '/' :: (fillWith (asg ++ [(n, t)]) s ++ Spec.pathText (ss.map (fillWith (asg ++ [(n, t)]))))
    rw [slash]
    congr 1
    by_cases hs : s = .par n
    · subst hs
      have hnot : n ∉ parNames ss := by
        simp only [parNames, List.nodup_cons] at hd
        exact hd.1
      have e1 : fillWith asg (.par n) = '{' :: n ++ ['}'] := by simp [fillWith, hnone]
      have e2 : fillWith (asg ++ [(n, t)]) (.par n) = pathEscape t := by
        simp [fillWith, textFor_snoc, hnone]
      rw [e1, e2]
      have e3 : replaceFirst ('{' :: n ++ ['}']) (pathEscape t)
          ('{' :: n ++ ['}'] ++ Spec.pathText (ss.map (fillWith asg))) =
          pathEscape t ++ Spec.pathText (ss.map (fillWith asg)) := by
        have hp := dropPrefix_self ('{' :: n ++ ['}']) (Spec.pathText (ss.map (fillWith asg)))
        simp only [List.cons_append] at hp ⊢
        rw [replaceFirst, hp]
      rw [e3]
      congr 2
      apply List.map_congr_left
      intro x hx
      refine (fillWith_snoc_other asg n t x ?_).symm
      intro m hm' 
      subst hm'
      exact Or.inl (fun e => hnot (e ▸ mem_parNames.mpr hx))
    · have hne : ∀ m, s = .par m → m ≠ n := by
        intro m e he; exact hs (by rw [e, he])
      rw [replace_other asg hb n _ hn.2 s
        (fun l e => hr.1 l (by rw [e]; exact List.mem_cons_self ..))
        (fun m e => by
          obtain ⟨a, b⟩ := hr.2 m (by rw [e]; exact List.mem_cons_self ..)
          exact ⟨a, b, Or.inl (hne m e)⟩),
        fillWith_snoc_other asg n t s (fun m e => Or.inl (hne m e))]
      congr 1
      apply replace_path asg hb n t hnone ss hr'
      · cases s with
        | lit l => simpa [parNames] using hd
        | par m => simp only [parNames, List.nodup_cons] at hd; exact hd.2
      · cases s with
        | lit l => simpa [parNames] using hm
        | par m =>
          simp only [parNames, List.mem_cons] at hm
          rcases hm with h | h
          · exact absurd h.symm (hne m rfl)
          · exact h

/-- One replacement in the whole path. -/
def replStep (path : Str) (a : Str × Str) : Str :=
  replaceFirst ('{' :: a.1 ++ ['}']) (pathEscape a.2) path

/-- All replacements. -/
theorem replace_all (ss : List Seg) (hr : Repl ss) (hd : (parNames ss).Nodup) :
    ∀ (todo asg : List (Str × Str)), (∀ p ∈ asg, ∀ c ∈ p.2, IsByte c) →
      (∀ p ∈ todo, ∀ c ∈ p.2, IsByte c) → (∀ p ∈ todo, p.1 ∈ parNames ss) →
      (∀ p ∈ todo, textFor asg p.1 = none) → (todo.map Prod.fst).Nodup →
      todo.foldl replStep (Spec.pathText (ss.map (fillWith asg))) =
        Spec.pathText (ss.map (fillWith (asg ++ todo)))
  | [], asg, _, _, _, _, _ => by simp
  | (n, t) :: todo, asg, hb, hb', hm, hnone, hnd => by
    rw [List.foldl_cons, replStep, replace_path asg hb n t (hnone _ (List.mem_cons_self ..)) ss hr hd
      (hm _ (List.mem_cons_self ..)),
      replace_all ss hr hd todo (asg ++ [(n, t)])]
    · simp
    · intro p hp
      rcases List.mem_append.mp hp with h | h
      · exact hb p h
      · rw [List.mem_singleton] at h; subst h; exact hb' _ (List.mem_cons_self ..)
    · exact fun p hp => hb' p (List.mem_cons_of_mem _ hp)
    · exact fun p hp => hm p (List.mem_cons_of_mem _ hp)
    · intro p hp
      rw [textFor_snoc, hnone p (List.mem_cons_of_mem _ hp)]
      dsimp only
      rw [if_neg]
      intro e
      rw [List.map_cons, List.nodup_cons] at hnd
      exact hnd.1 (by rw [show (n, t).1 = p.1 from e]; exact List.mem_map_of_mem hp)
    · rw [List.map_cons, List.nodup_cons] at hnd; exact hnd.2

/-! ## The endpoint -/

theorem pathEscape_plain (s : Str) (h : ∀ c ∈ s, segPlain c = true) : pathEscape s = s := by
  induction s with
  | nil => rfl
  | cons c s ih =>
    rw [pathEscape, if_pos (h c (List.mem_cons_self ..)), ih (fun d hd => h d (List.mem_cons_of_mem _ hd))]
    rfl

theorem unescape_path (ss : List Str) (h : ∀ s ∈ ss, ∀ c ∈ s, IsByte c) :
    unescape false (Spec.pathText (ss.map pathEscape)) = some (Spec.pathText ss) := by
  induction ss with
  | nil => rfl
  | cons s ss ih =>
    have ih := ih (fun t ht => h t (List.mem_cons_of_mem _ ht))
    simp only [List.map_cons, Spec.pathText, List.cons_append]
    rw [unescape_plain false '/' (by decide) (by simp), path_round s _ (h s (List.mem_cons_self ..)), ih]
    rfl

theorem path_not_mem (ss : List Str) (h : ∀ s ∈ ss, ∀ c ∈ s, IsByte c) (d : Char) (h1 : d ≠ '%')
    (h0 : d ≠ '/') (h2 : segPlain d = false) : d ∉ Spec.pathText (ss.map pathEscape) := by
  induction ss with
  | nil => simp [Spec.pathText]
  | cons s ss ih =>
    have ih := ih (fun t ht => h t (List.mem_cons_of_mem _ ht))
    simp only [List.map_cons, Spec.pathText, List.cons_append, List.mem_cons, List.mem_append, not_or]
    exact ⟨h0, pathEscape_not_mem s (h s (List.mem_cons_self ..)) d h1 h2, ih⟩

/-- The endpoint as the host reads it. -/
theorem endpoint_read (w : Writing V) (ss : List Str) (h : ∀ s ∈ ss, ∀ c ∈ s, IsByte c)
    (hp : w.path = requestPath (ss.map pathEscape)) (hq : ∀ p ∈ w.query, BytePair p) :
    ∃ q, parseEndpoint (endpoint w) = some (requestPath ss, q) ∧
      ∀ key, valuesOf q key = valuesOf w.query key := by
  have hpath : ∀ d : Char, d ≠ '%' → d ≠ '/' → segPlain d = false → d ∉ w.path := by
    intro d h1 h0 h2
    rw [hp]
    unfold requestPath
    split
    · simp [h0]
    · exact path_not_mem ss h d h1 h0 h2
  have hun : unescape false w.path = some (requestPath ss) := by
    rw [hp]
    unfold requestPath
    by_cases e : ss = []
    · subst e; rfl
    · rw [if_neg e, if_neg (by simpa using e)]
      exact unescape_path ss h
  unfold endpoint parseEndpoint
  by_cases e : w.query = []
  · rw [if_pos e]
    rw [cut_none '#' _ (hpath '#' (by decide) (by decide) (by decide))]
    dsimp only
    rw [cut_none '?' _ (hpath '?' (by decide) (by decide) (by decide)), hun]
    refine ⟨_, rfl, ?_⟩
    intro key
    rw [e]
    rfl
  · rw [if_neg e]
    have h1 : '#' ∉ w.path ++ '?' :: encodeValues w.query := by
      rw [List.mem_append, List.mem_cons, not_or, not_or]
      exact ⟨hpath '#' (by decide) (by decide) (by decide), by decide,
        encodeValues_not_mem _ hq '#' (by decide) (by decide) (by decide) (by decide) (by decide)⟩
    rw [cut_none '#' _ h1]
    dsimp only
    rw [cut_append '?' _ _ (hpath '?' (by decide) (by decide) (by decide)), hun]
    exact ⟨_, rfl, fun key => query_carries w.query hq key⟩

end Verif.Rest.Serve
