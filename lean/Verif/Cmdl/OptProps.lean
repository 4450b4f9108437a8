import Verif.Cmdl.OptModel
/-!
# C86: options
-/
namespace Verif.Cmdl

/-! ## The bound on the number of rounds is no restriction -/

theorem oneField_moves {α : Type} (c : OCodec α) (args : List Str) (f f' : OField α) (r r' : Round α)
    (h : oneField c args f r = some (f', r')) :
    r.tracker ≤ r'.tracker ∧ (r'.consuming = true → r.consuming = true ∨ r.tracker < r'.tracker) := by
  unfold oneField at h
  split at h
  · cases h
  · rename_i r1 hs
    have m1 : r.tracker ≤ r1.tracker ∧ (r1.consuming = true → r.consuming = true ∨ r.tracker < r1.tracker) := by
      unfold shift at hs
      split at hs
      · cases hs; exact ⟨Nat.le_refl _, Or.inl⟩
      · split at hs
        · cases hs; exact ⟨Nat.le_refl _, Or.inl⟩
        · split at hs
          · split at hs
            · cases hs
            · cases hs; exact ⟨Nat.le_succ _, fun _ => Or.inr (Nat.lt_succ_self _)⟩
          · cases hs; exact ⟨Nat.le_refl _, Or.inl⟩
    split at h
    · cases h; exact m1
    · split at h
      · cases h
      · rename_i v r2 hset
        cases h
        have m2 : r1.tracker ≤ r'.tracker ∧ (r'.consuming = true → r1.consuming = true ∨ r1.tracker < r'.tracker) := by
          unfold setField at hset
          split at hset
          · split at hset
            · cases hset
            · cases hset
              split
              · exact ⟨Nat.le_succ _, fun _ => Or.inr (Nat.lt_succ_self _)⟩
              · exact ⟨Nat.le_refl _, Or.inl⟩
          · cases hset; exact ⟨Nat.le_refl _, Or.inl⟩
          · simp only [Option.map_eq_some_iff] at hset
            obtain ⟨a, _, e⟩ := hset
            cases e; exact ⟨Nat.le_refl _, Or.inl⟩
        refine ⟨Nat.le_trans m1.1 m2.1, fun x => ?_⟩
        rcases m2.2 x with y | y
        · rcases m1.2 y with z | z
          · exact Or.inl z
          · exact Or.inr (Nat.lt_of_lt_of_le z m2.1)
        · exact Or.inr (Nat.lt_of_le_of_lt m1.1 y)

theorem allFields_moves {α : Type} (c : OCodec α) (args : List Str) : ∀ (fs fs' : List (OField α)) (r r' : Round α),
    allFields c args fs r = some (fs', r') →
    r.tracker ≤ r'.tracker ∧ (r'.consuming = true → r.consuming = true ∨ r.tracker < r'.tracker)
  | [], _, r, r', h => by cases h; exact ⟨Nat.le_refl _, Or.inl⟩
  | f :: fs, _, r, r', h => by
    rw [allFields] at h
    split at h
    · cases h
    · rename_i f1 r1 e1
      split at h
      · cases h
      · rename_i fs2 r2 e2
        cases h
        have a := oneField_moves c args f f1 r r1 e1
        have b := allFields_moves c args fs fs2 r1 r' e2
        refine ⟨Nat.le_trans a.1 b.1, fun x => ?_⟩
        rcases b.2 x with y | y
        · rcases a.2 y with z | z
          · exact Or.inl z
          · exact Or.inr (Nat.lt_of_lt_of_le z b.1)
        · exact Or.inr (Nat.lt_of_le_of_lt a.1 y)

/-- More rounds than words make no difference: the bound in `consume` is not a restriction. -/
theorem rounds_fuel {α : Type} (c : OCodec α) (args : List Str) : ∀ (fuel fuel' : Nat) (fs : List (OField α))
    (tracker extra : Nat), args.length < fuel + tracker → args.length < fuel' + tracker → tracker < args.length →
    rounds c args fuel fs tracker extra = rounds c args fuel' fs tracker extra
  | 0, _, _, _, _, h, _, h' => by omega
  | _, 0, _, _, _, _, h, h' => by omega
  | fuel + 1, fuel' + 1, fs, tracker, extra, h1, h2, _ => by
    rw [rounds, rounds]
    split
    · rfl
    · rename_i w _
      split
      · rfl
      · rename_i fs1 r e
        have m := allFields_moves c args _ _ _ _ e
        split
        · rfl
        · split
          · rename_i hc
            rcases m.2 hc with x | x
            · cases x
            · simp only at x
              exact rounds_fuel c args fuel fuel' fs1 r.tracker r.extra (by omega) (by omega) (by omega)
          · rfl

/-! ## C86: flags -/

/-- The name of a plain flag. -/
def PlainName (s : Str) : Prop := s ≠ [] ∧ ',' ∉ s ∧ '%' ∉ s ∧ ' ' ∉ s ∧ s ≠ ['-']

/-- A plain flag: a boolean with nothing but its name in the tag. -/
def OField.Flag {α : Type} (f : OField α) : Prop := PlainName f.tag ∧ ∃ b, f.val = .bool b

theorem cut_none (sep : Char) : ∀ s : Str, sep ∉ s → cut sep s = (s, [])
  | [], _ => rfl
  | c :: cs, h => by
    rw [cut, if_neg (fun e => h (by simp [e])), cut_none sep cs (fun e => h (by simp [e]))]

theorem contains_head {sub s : Str} {c : Char} (hc : sub.head? = some c) (h : c ∉ s) : contains sub s = false := by
  induction s with
  | nil => cases sub <;> simp_all [contains]
  | cons d s ih =>
    cases sub with
    | nil => simp at hc
    | cons e sub =>
      simp only [List.head?_cons, Option.some.injEq] at hc
      subst hc
      simp only [List.mem_cons, not_or] at h
      simp [contains, ih h.2, List.isPrefixOf, h.1]

theorem oneField_flag {α : Type} (c : OCodec α) (args : List Str) (f : OField α) (r : Round α) (h : f.Flag) :
    oneField c args f r = some (if f.tag = r.arg then
      ({ f with val := .bool true }, { r with tracker := r.tracker + 1, extra := r.extra + 1, consuming := true })
      else (f, r)) := by
  obtain ⟨⟨_, h1, h2, _⟩, b, hb⟩ := h
  have hn : nameOf f.tag = f.tag := by rw [nameOf, cut_none _ _ h1]
  have ho : optsOf f.tag = [] := by rw [optsOf, cut_none _ _ h1]
  have hs : shift args (nameOf f.tag) r = some r := by rw [hn, shift, if_pos h2]
  rw [oneField, hs]
  simp only [hn, matchesField]
  by_cases e : f.tag = r.arg
  · have hset : setField c f r = some (.bool true,
        { r with tracker := r.tracker + 1, extra := r.extra + 1, consuming := true }) := by
      simp only [setField, hb, hn, if_neg h2, ho]
      rfl
    simp [e, hset]
  · simp [e, h2, Ne.symm e]

/-- What one word does to the flags. -/
def switch {α : Type} (w : Str) (f : OField α) : OField α := if f.tag = w then { f with val := .bool true } else f

theorem allFields_flags {α : Type} (c : OCodec α) (args : List Str) : ∀ (fs : List (OField α)) (r : Round α),
    (∀ f ∈ fs, f.Flag) → (fs.map OField.tag).Nodup →
    allFields c args fs r = some (fs.map (switch r.arg), if r.arg ∈ fs.map OField.tag then
      { r with tracker := r.tracker + 1, extra := r.extra + 1, consuming := true } else r)
  | [], r, _, _ => by simp [allFields]
  | f :: fs, r, h, hn => by
    simp only [List.map_cons, List.nodup_cons] at hn
    rw [allFields, oneField_flag c args f r (h f (by simp))]
    by_cases e : f.tag = r.arg
    · simp only [if_pos e]
      rw [allFields_flags c args fs _ (fun g hg => h g (by simp [hg])) hn.2]
      simp only [List.map_cons]
      rw [if_neg (by rw [← e]; exact hn.1), if_pos (by simp [e])]
      simp [switch, e]
    · simp only [if_neg e]
      rw [allFields_flags c args fs _ (fun g hg => h g (by simp [hg])) hn.2]
      simp only [List.map_cons]
      have : (r.arg ∈ f.tag :: fs.map OField.tag) ↔ (r.arg ∈ fs.map OField.tag) := by
        simp [Ne.symm e]
      simp only [this]
      simp [switch, e]

theorem switch_tag {α : Type} (w : Str) (f : OField α) : (switch w f).tag = f.tag := by
  unfold switch; split <;> rfl

theorem switch_flag {α : Type} (w : Str) (f : OField α) (h : f.Flag) : (switch w f).Flag := by
  unfold switch; split
  · exact ⟨h.1, true, rfl⟩
  · exact h

theorem map_switch_tag {α : Type} (w : Str) (fs : List (OField α)) :
    (fs.map (switch w)).map OField.tag = fs.map OField.tag := by
  simp [switch_tag]

theorem rounds_flags {α : Type} (c : OCodec α) (args : List Str) : ∀ (flags rest : List Str) (fuel : Nat)
    (fs : List (OField α)) (tracker extra : Nat),
    (∀ f ∈ fs, f.Flag) → (fs.map OField.tag).Nodup → args.drop tracker = flags ++ rest → flags ++ rest ≠ [] →
    (∀ w ∈ flags, w ∈ fs.map OField.tag) → (∀ w, rest.head? = some w → w ∉ fs.map OField.tag) →
    flags.length < fuel →
    rounds c args fuel fs tracker extra =
      .done (flags.foldl (fun fs w => fs.map (switch w)) fs) (extra + flags.length)
  | [], rest, fuel, fs, tracker, extra, h, hn, hd, hne, hf, hr, hlt => by
    obtain ⟨fuel, rfl⟩ : ∃ k, fuel = k + 1 := ⟨fuel - 1, by simp at hlt; omega⟩
    cases rest with
    | nil => exact absurd rfl hne
    | cons w rest =>
      have hw : args[tracker]? = some w := by
        have := congrArg List.head? hd
        simpa using this
      have hmem := hr w rfl
      rw [rounds, hw]
      simp only
      rw [allFields_flags c args fs _ h hn]
      simp only [if_neg hmem]
      have hid : fs.map (switch w) = fs := by
        rw [List.map_congr_left (g := id)]
        · simp
        · intro f hf
          simp only [switch, id]
          rw [if_neg (fun e : f.tag = w => hmem (e ▸ List.mem_map_of_mem hf))]
      rw [hid]
      split <;> simp
  | w :: flags, rest, fuel, fs, tracker, extra, h, hn, hd, hne, hf, hr, hlt => by
    obtain ⟨fuel, rfl⟩ : ∃ k, fuel = k + 1 := ⟨fuel - 1, by simp at hlt; omega⟩
    have hw : args[tracker]? = some w := by
      have := congrArg List.head? hd
      simpa using this
    have hmem := hf w (by simp)
    have hd' : args.drop (tracker + 1) = flags ++ rest := by
      have := congrArg List.tail hd
      simpa using this
    rw [rounds, hw]
    simp only
    rw [allFields_flags c args fs _ h hn]
    simp only [if_pos hmem]
    by_cases hl : tracker + 1 ≥ args.length
    · rw [if_pos hl]
      have : flags ++ rest = [] := by rw [← hd']; exact List.drop_eq_nil_iff.2 hl
      obtain ⟨rfl, rfl⟩ := List.append_eq_nil_iff.1 this
      rfl
    · rw [if_neg hl]
      simp only [if_true]
      have hne' : flags ++ rest ≠ [] := by rw [← hd']; simpa using hl
      rw [rounds_flags c args flags rest fuel (fs.map (switch w)) (tracker + 1) (extra + 1)
        (by intro f hf; obtain ⟨g, hg, rfl⟩ := List.mem_map.1 hf; exact switch_flag w g (h g hg))
        (by rw [map_switch_tag]; exact hn) hd' hne'
        (by rw [map_switch_tag]; intro x hx; exact hf x (by simp [hx]))
        (by rw [map_switch_tag]; exact hr) (by simp at hlt; omega)]
      simp only [List.foldl_cons, List.length_cons]
      congr 1
      omega

theorem fold_switch {α : Type} : ∀ (flags : List Str) (fs : List (OField α)),
    flags.foldl (fun fs w => fs.map (switch w)) fs =
      fs.map fun f => if f.tag ∈ flags then { f with val := .bool true } else f
  | [], fs => by simp
  | w :: flags, fs => by
    rw [List.foldl_cons, fold_switch flags, List.map_map]
    apply List.map_congr_left
    intro f _
    simp only [Function.comp, switch_tag, List.mem_cons]
    by_cases h : f.tag ∈ flags
    · rw [if_pos h, if_pos (Or.inr h)]
    · rw [if_neg h]
      by_cases e : f.tag = w
      · rw [if_pos (Or.inl e), switch, if_pos e]
      · rw [if_neg (by simp [e, h]), switch, if_neg e]

theorem presets_flag {α : Type} (f : OField α) (h : f.Flag) : presets f = f := by
  obtain ⟨⟨_, h1, _⟩, b, hb⟩ := h
  unfold presets
  rw [hb]
  simp only
  rw [contains_head (c := ',') (by decide) h1]
  rfl

/-- C86, partial: for a struct of plain flags, the words up to the first that is no flag switch on
exactly their own flags, and exactly these words are used up. -/
theorem flags_partial {α : Type} (c : OCodec α) (before flags rest : List Str) (fs : List (OField α))
    (h : ∀ f ∈ fs, f.Flag) (hn : (fs.map OField.tag).Nodup) (hne : flags ++ rest ≠ [])
    (hf : ∀ w ∈ flags, w ∈ fs.map OField.tag) (hr : ∀ w, rest.head? = some w → w ∉ fs.map OField.tag) :
    consume c (before ++ (flags ++ rest)) fs before.length =
      .done (fs.map fun f => if f.tag ∈ flags then { f with val := .bool true } else f) flags.length := by
  have hp : fs.map presets = fs := by
    rw [List.map_congr_left (g := id) (fun f hf => presets_flag f (h f hf))]
    simp
  rw [consume, hp, rounds_flags c _ flags rest _ fs before.length 0 h hn (by simp) hne hf hr
    (by simp; omega), fold_switch, Nat.zero_add]

/-- C86, partial: plain flags that a client sends are the ones the program gets: the client's words
switch on the fields of a fresh struct that were on. -/
theorem flags_round_trip_partial {α : Type} (c : OCodec α) (zero : α → Bool) (before rest : List Str)
    (fs : List (OField α)) (h : ∀ f ∈ fs, f.Flag) (hn : (fs.map OField.tag).Nodup)
    (hne : structWords c zero fs ++ rest ≠ []) (hr : ∀ w, rest.head? = some w → w ∉ fs.map OField.tag) :
    consume c (before ++ (structWords c zero fs ++ rest))
      (fs.map fun f => { f with val := .bool false }) before.length =
      .done fs (structWords c zero fs).length := by
  have hw : ∀ f ∈ fs, fieldWords c zero f = match f.val with | .bool true => [f.tag] | _ => [] := by
    intro f hf
    obtain ⟨⟨h0, h1, h2, h3, h4⟩, b, hb⟩ := h f hf
    rw [fieldWords, if_neg h4, hb]
    simp only [contains_head (sub := ['%', 'v']) (c := '%') (by decide) h2,
      contains_head (sub := ",omitempty".toList) (c := ',') (by decide) h1,
      contains_head (sub := ",omitzero".toList) (c := ',') (by decide) h1]
    have hnm : nameOf f.tag = f.tag := by rw [nameOf, cut_none _ _ h1]
    have hsp : ∀ s : Str, ' ' ∉ s → split ' ' s = [s] := by
      intro s
      induction s with
      | nil => intro _; rfl
      | cons d s ih =>
        intro hs
        simp only [List.mem_cons, not_or] at hs
        rw [split, if_neg (Ne.symm hs.1), ih hs.2]
    cases b with
    | true =>
      simp only [isZero, hnm, hsp f.tag h3]
      simp [h2]
    | false => simp [isZero]
  have hmem : ∀ w, w ∈ structWords c zero fs ↔ ∃ f ∈ fs, f.val = .bool true ∧ f.tag = w := by
    intro w
    simp only [structWords, List.mem_flatMap]
    constructor
    · rintro ⟨f, hf, hx⟩
      rw [hw f hf] at hx
      split at hx
      · rename_i hv
        exact ⟨f, hf, hv, by simpa [eq_comm] using hx⟩
      · simp at hx
    · rintro ⟨f, hf, hv, rfl⟩
      exact ⟨f, hf, by rw [hw f hf, hv]; simp⟩
  have htags : (fs.map fun f => { f with val := OVal.bool (α := α) false }).map OField.tag = fs.map OField.tag := by
    rw [List.map_map]; rfl
  rw [flags_partial c before (structWords c zero fs) rest]
  · congr 1
    rw [List.map_map]
    conv => rhs; rw [← List.map_id fs]
    apply List.map_congr_left
    intro f hf
    simp only [Function.comp, id]
    obtain ⟨_, b, hb⟩ := h f hf
    have inj : ∀ g ∈ fs, g.tag = f.tag → g = f := by
      intro g hg e
      obtain ⟨i, hi, ei⟩ := List.mem_iff_getElem.1 hg
      obtain ⟨j, hj, ej⟩ := List.mem_iff_getElem.1 hf
      have : i = j := by
        refine (List.nodup_iff_pairwise_ne.1 hn |> fun hp => ?_)
        have hpw := List.pairwise_iff_getElem.1 hp
        rcases Nat.lt_trichotomy i j with x | x | x
        · exact absurd (by rw [List.getElem_map, List.getElem_map, ei, ej, e]) (hpw i j (by simpa using hi) (by simpa using hj) x)
        · exact x
        · exact absurd (by rw [List.getElem_map, List.getElem_map, ei, ej, e]) (hpw j i (by simpa using hj) (by simpa using hi) x)
      subst this
      exact ei.symm.trans ej
    cases b with
    | true =>
      rw [if_pos ((hmem _).2 ⟨f, hf, hb, rfl⟩)]
      cases f; simp only at hb; subst hb; rfl
    | false =>
      rw [if_neg]
      · cases f; simp only at hb; subst hb; rfl
      · intro x
        obtain ⟨g, hg, hv, e⟩ := (hmem _).1 x
        rw [inj g hg e, hb] at hv
        cases hv
  · intro f hf
    obtain ⟨g, hg, rfl⟩ := List.mem_map.1 hf
    exact ⟨(h g hg).1, false, rfl⟩
  · rw [htags]; exact hn
  · exact hne
  · rw [htags]
    intro w hx
    obtain ⟨f, hf, _, rfl⟩ := (hmem w).1 hx
    exact List.mem_map_of_mem hf
  · rw [htags]; exact hr

/-- A codec for the examples. -/
def plain : OCodec Nat :=
  ⟨fun _ s => if s = "true".toList then some true else if s = "false".toList then some false else none,
    fun _ s => some s.length, fun v => match v with
      | .bool true => "true".toList
      | .bool false => "false".toList
      | .str s => s
      | .num n => List.replicate n 'I'⟩

example : consume plain ["prog".toList, "-a".toList, "-c".toList, "file".toList]
    [⟨"-a".toList, .bool false⟩, ⟨"-b".toList, .bool false⟩, ⟨"-c".toList, .bool false⟩] 1 =
    .done [⟨"-a".toList, .bool true⟩, ⟨"-b".toList, .bool false⟩, ⟨"-c".toList, .bool true⟩] 2 := by decide +kernel

theorem cut_append (sep : Char) : ∀ s t : Str, sep ∉ s → cut sep (s ++ sep :: t) = (s, t)
  | [], t, _ => by simp [cut]
  | c :: s, t, h => by
    simp only [List.mem_cons, not_or] at h
    rw [List.cons_append, cut, if_neg (Ne.symm h.1), cut_append sep s t h.2]

theorem split_none' (sep : Char) : ∀ s : Str, sep ∉ s → split sep s = [s]
  | [], _ => rfl
  | c :: s, h => by
    simp only [List.mem_cons, not_or] at h
    rw [split, if_neg (Ne.symm h.1), split_none' sep s h.2]

theorem sprintf_append {α : Type} (c : OCodec α) (v : OVal α) (t : Str) : ∀ s : Str, '%' ∉ s →
    sprintf c (s ++ '%' :: 'v' :: t) v = s ++ (c.shows v ++ t)
  | [], _ => rfl
  | d :: s, h => by
    simp only [List.mem_cons, not_or] at h
    have := sprintf_append c v t s h.2
    rw [List.cons_append, sprintf, this]
    · rfl
    · intro r e
      exact absurd e.symm h.1

/-- C86, partial: an option with a value, `--name=%v`, that is the only one of its struct: the client writes one word for
it, also for an empty text or a zero, and the program that is given this word, whatever follows, has the value in the
field. What is missing: the word is not counted as used up, so the words after it are lost or taken twice. -/
theorem value_round_trip_partial {α : Type} (c : OCodec α) (zero : α → Bool) (name : Str) (hc : ',' ∉ name)
    (hp : '%' ∉ name) (hb : ' ' ∉ name) (before rest : List Str) (v old : OVal α)
    (hv : (∃ s s', v = .str s ∧ old = .str s' ∧ c.shows v = s) ∨
      (∃ a a', v = .num a ∧ old = .num a' ∧ c.nums "%v".toList (c.shows v) = some a)) :
    structWords c zero [⟨name ++ "=%v".toList, v⟩] = [name ++ '=' :: c.shows v] ∧
      consume c (before ++ (structWords c zero [⟨name ++ "=%v".toList, v⟩] ++ rest))
        [⟨name ++ "=%v".toList, old⟩] before.length = .done [⟨name ++ "=%v".toList, v⟩] 0 := by
  have e : "=%v".toList = ['=', '%', 'v'] := by decide
  have e2 : "%v".toList = ['%', 'v'] := by decide
  rw [e]
  rw [e2] at hv
  have hcm : ',' ∉ name ++ ['=', '%', 'v'] := by simp [hc]
  have hname : nameOf (name ++ ['=', '%', 'v']) = name ++ ['=', '%', 'v'] := by rw [nameOf, cut_none _ _ hcm]
  have happ : name ++ ['=', '%', 'v'] = (name ++ ['=']) ++ '%' :: ['v'] := by simp
  have hcut : cut '%' (name ++ ['=', '%', 'v']) = (name ++ ['='], ['v']) := by
    rw [happ, cut_append]
    simp [hp]
  have hpre : prefixOf (name ++ ['=', '%', 'v']) = name ++ ['='] := by rw [prefixOf, hcut]
  have hfmt : formatOf (name ++ ['=', '%', 'v']) = ['%', 'v'] := by
    rw [formatOf, if_pos (by simp), hcut]
  have hmem : '%' ∈ name ++ ['=', '%', 'v'] := by simp
  have hw : structWords c zero [⟨name ++ ['=', '%', 'v'], v⟩] = [name ++ '=' :: c.shows v] := by
    have hnb : contains ['%', 'v'] (name ++ ['=', '%', 'v']) = true := by
      have : ∀ n : Str, contains ['%', 'v'] (n ++ ['=', '%', 'v']) = true := by
        intro n
        induction n with
        | nil => rfl
        | cons d n ih => simp [contains, ih]
      exact this name
    have h1 : contains ",omitempty".toList (name ++ ['=', '%', 'v']) = false := contains_head (c := ',') (by decide) hcm
    have h2 : contains ",omitzero".toList (name ++ ['=', '%', 'v']) = false := contains_head (c := ',') (by decide) hcm
    have hne : name ++ ['=', '%', 'v'] ≠ ['-'] := by
      intro h
      have := congrArg List.length h
      simp at this
    simp only [structWords, List.flatMap_cons, List.flatMap_nil, List.append_nil, fieldWords, hne, if_false]
    rw [hnb, h1, h2, hname]
    simp only [Bool.or_self, Bool.not_true, Bool.false_and, Bool.false_eq_true, if_false]
    rw [split_none' ' ' _ (by simp [hb])]
    simp only [List.map_cons, List.map_nil, if_pos hmem]
    rw [happ, sprintf_append _ _ _ _ (by simp [hp])]
    simp
  refine ⟨hw, ?_⟩
  rw [hw, consume]
  have hpr : presets ⟨name ++ ['=', '%', 'v'], old⟩ = ⟨name ++ ['=', '%', 'v'], old⟩ := by
    rcases hv with ⟨s, s', -, rfl, -⟩ | ⟨a, a', -, rfl, -⟩ <;> rfl
  simp only [List.map_cons, List.map_nil, hpr, rounds]
  have hget : (before ++ ([name ++ '=' :: c.shows v] ++ rest))[before.length]? = some (name ++ '=' :: c.shows v) := by simp
  rw [hget]
  have hpf : (name ++ ['=']).isPrefixOf (name ++ '=' :: c.shows v) = true := by
    rw [List.isPrefixOf_iff_prefix]
    exact ⟨c.shows v, by simp⟩
  have hdrop : (name ++ '=' :: c.shows v).drop (name ++ ['=']).length = c.shows v := by
    rw [show name ++ '=' :: c.shows v = (name ++ ['=']) ++ c.shows v by simp, List.drop_left]
  have hset : setField c ⟨name ++ ['=', '%', 'v'], old⟩ ⟨before.length, 0, c.shows v, false⟩ =
      some (v, ⟨before.length, 0, c.shows v, false⟩) := by
    rcases hv with ⟨s, s', rfl, rfl, h⟩ | ⟨a, a', rfl, rfl, h⟩
    · simp only [setField, h]
    · simp only [setField, hname, hfmt, h, Option.map_some]
  have hone : oneField c (before ++ ([name ++ '=' :: c.shows v] ++ rest)) ⟨name ++ ['=', '%', 'v'], old⟩
      ⟨before.length, 0, name ++ '=' :: c.shows v, false⟩ =
      some (⟨name ++ ['=', '%', 'v'], v⟩, ⟨before.length, 0, c.shows v, false⟩) := by
    simp only [oneField, hname, shift, hpre]
    rw [if_neg (by simp), if_pos (by simp), if_pos hpf, hdrop]
    have hm : matchesField (name ++ ['=', '%', 'v']) (name ++ '=' :: c.shows v) = true := by
      simp only [matchesField, hpre, hpf, hmem]
      simp
    simp only [hm, Bool.not_true, Bool.false_eq_true, if_false, hset]
  simp only [allFields, hone]
  split
  · rfl
  · rfl

example : consume plain ["prog".toList, "--n=III".toList, "x".toList] [⟨"--n=%v".toList, .num 0⟩] 1 =
    .done [⟨"--n=%v".toList, .num 3⟩] 0 :=
  (value_round_trip_partial plain (· == 0) "--n".toList (by decide) (by decide) (by decide) ["prog".toList] ["x".toList]
    (.num 3) (.num 0) (.inr ⟨3, 0, rfl, rfl, by decide⟩)).2

/-- C86: an option marked `omitempty` or `omitzero` is not sent if it has its zero value, whatever it is. -/
theorem zero_omitted {α : Type} (c : OCodec α) (zero : α → Bool) (name : Str) (mark : Str)
    (hm : mark = ",omitempty".toList ∨ mark = ",omitzero".toList) (v : OVal α)
    (hz : v = .bool false ∨ v = .str [] ∨ ∃ a, v = .num a ∧ zero a = true) (fs : List (OField α)) :
    structWords c zero (⟨name ++ mark, v⟩ :: fs) = structWords c zero fs := by
  have hcon : ∀ (m n : Str), contains m (n ++ m) = true := by
    intro m n
    induction n with
    | nil =>
      cases m with
      | nil => rfl
      | cons d m => simp [contains]
    | cons d n ih => simp [contains, ih]
  have hz' : isZero zero v = true := by
    rcases hz with rfl | rfl | ⟨a, rfl, h⟩
    · rfl
    · rfl
    · exact h
  have : fieldWords c zero ⟨name ++ mark, v⟩ = [] := by
    unfold fieldWords
    split
    · rfl
    · dsimp only
      rw [if_pos]
      rw [hz', Bool.and_true]
      rcases hm with rfl | rfl
      · rw [hcon]; rfl
      · rw [hcon, Bool.or_true]; rfl
  rw [structWords, List.flatMap_cons, this]
  rfl

example : structWords plain (· == 0) [⟨"--n=%v,omitempty".toList, .num 0⟩, ⟨"--s=%v".toList, .str []⟩] =
    ["--s=".toList] := by
  rw [show "--n=%v,omitempty".toList = "--n=%v".toList ++ ",omitempty".toList by decide,
    zero_omitted plain (· == 0) _ _ (.inl rfl) _ (.inr (.inr ⟨0, rfl, rfl⟩))]
  exact (value_round_trip_partial plain (· == 0) "--s".toList (by decide) (by decide) (by decide) [] []
    (.str []) (.str []) (.inl ⟨[], [], rfl, rfl, rfl⟩)).1

/-- C86 fails: after an option with a value no other option is looked at, and the option itself is not
used up. -/
theorem values_stop : consume plain ["prog".toList, "--name=x".toList, "--flag".toList]
    [⟨"--name=%v".toList, .str []⟩, ⟨"--flag".toList, .bool false⟩] 1 =
    .done [⟨"--name=%v".toList, .str "x".toList⟩, ⟨"--flag".toList, .bool false⟩] 0 := by decide +kernel

/-- C86 fails: the value of one option switches on another. -/
theorem values_are_options : consume plain ["prog".toList, "--name=--flag".toList]
    [⟨"--name=%v".toList, .str []⟩, ⟨"--flag".toList, .bool false⟩] 1 =
    .done [⟨"--name=%v".toList, .str "--flag".toList⟩, ⟨"--flag".toList, .bool true⟩] 1 := by decide +kernel

/-- C86 fails: an option whose value is the next word (`--name %v`) is never found: whatever the
words, reading a struct with just this option ends with an error. -/
theorem next_word_refused {α : Type} (c : OCodec α) (name : Str) (h : ',' ∉ name) (hp : '%' ∉ name)
    (before rest : List Str) (hw : ∀ w ∈ rest, ' ' ∉ w) (hne : rest ≠ []) (s : Str) :
    consume c (before ++ rest) [⟨name ++ [' ', '%', 'v'], .str s⟩] before.length = .error := by
  have hcut : ∀ n : Str, ',' ∉ n → nameOf (n ++ [' ', '%', 'v']) = n ++ [' ', '%', 'v'] := by
    intro n hn
    rw [nameOf, cut_none]
    simp only [List.mem_append, not_or]
    exact ⟨hn, by decide⟩
  have hpre : ∀ n : Str, '%' ∉ n → prefixOf (n ++ [' ', '%', 'v']) = n ++ [' '] := by
    intro n hn
    unfold prefixOf
    induction n with
    | nil => rfl
    | cons d n ih =>
      simp only [List.mem_cons, not_or] at hn
      rw [List.cons_append, cut, if_neg (Ne.symm hn.1)]
      simp only [ih hn.2, List.cons_append]
  have hmem : '%' ∈ name ++ [' ', '%', 'v'] := by simp
  have hno : ∀ w : Str, ' ' ∉ w → matchesField (name ++ [' ', '%', 'v']) w = false := by
    intro w hw
    simp only [matchesField, Bool.or_eq_false_iff, decide_eq_false_iff_not, Bool.and_eq_false_iff]
    refine ⟨?_, Or.inr ?_⟩
    · rintro rfl; simp at hw
    · rw [hpre name hp]
      cases e : (name ++ [' ']).isPrefixOf w with
      | false => rfl
      | true =>
        rw [List.isPrefixOf_iff_prefix] at e
        obtain ⟨t, rfl⟩ := e
        simp at hw
  rw [consume]
  have gen : ∀ (rest : List Str) (fuel tracker extra : Nat) (args : List Str), rest ≠ [] → rest.length < fuel →
      args.drop tracker = rest → (∀ w ∈ rest, ' ' ∉ w) →
      rounds c args fuel [⟨name ++ [' ', '%', 'v'], .str s⟩] tracker extra = .error := by
    intro rest
    induction rest with
    | nil => intro _ _ _ _ h; exact absurd rfl h
    | cons w rest ih =>
      intro fuel tracker extra args _ hlt hd hw
      obtain ⟨fuel, rfl⟩ : ∃ k, fuel = k + 1 := ⟨fuel - 1, by simp at hlt; omega⟩
      have h0 : args[tracker]? = some w := by
        have := congrArg List.head? hd
        simpa using this
      have hd' : args.drop (tracker + 1) = rest := by
        have := congrArg List.tail hd
        simpa using this
      rw [rounds, h0]
      simp only [allFields, oneField, hcut name h, shift, hpre name hp]
      rw [if_neg (by simp), if_neg (by simp), if_pos (by simp)]
      cases rest with
      | nil =>
        have : args[tracker + 1]? = none := by
          rw [List.getElem?_eq_none_iff]
          exact List.drop_eq_nil_iff.1 hd'
        rw [this]
      | cons w' rest =>
        have h1 : args[tracker + 1]? = some w' := by
          have := congrArg List.head? hd'
          simpa using this
        rw [h1]
        simp only [hno w (hw w (by simp))]
        have hl : ¬ tracker + 1 ≥ args.length := by
          have := (List.getElem?_eq_some_iff.1 h1).1
          omega
        simp only [Bool.not_false, if_true, if_neg hl]
        exact ih fuel (tracker + 1) (extra + 1) args (by simp) (by simp at hlt ⊢; omega) hd'
          (fun x hx => hw x (by simp_all))
  exact gen rest _ before.length 0 _ hne (by simp; omega) (by simp) hw

example : ',' ∉ "--name".toList ∧ '%' ∉ "--name".toList ∧
    (∀ w ∈ ["--name".toList, "value".toList], ' ' ∉ w) := by decide +kernel

/-- C86 fails: an inverted flag arrives the other way round than it was sent. -/
theorem inverted_flips (b : Bool) : consume plain
    ("prog".toList :: (structWords plain (· == 0) [⟨"--x,invert".toList, .bool b⟩] ++ ["file".toList]))
    [⟨"--x,invert".toList, .bool false⟩] 1 = .done [⟨"--x,invert".toList, .bool (!b)⟩] (if b then 1 else 0) := by
  cases b <;> decide +kernel

end Verif.Cmdl
