import Verif.Cmdl.Props
/-!
# C85: what the client sends is what the program gets
-/
namespace Verif.Cmdl

/-- What the part of a command line that remains has to satisfy (used in proofs only). -/
def Fits {α : Type} (c : Codec α) (fn : Fn) (args : List (Val α)) : Nat → List Part → Prop
  | _, [] => True
  | n, .lit s :: ps => (Part.lit s).Ok ∧ Fits c fn args n ps
  | n, p :: ps => p.found args.length n ∧
      (∀ a, args[(p.refer n).1]? = some (.num a) → p = .next ∧ c.scans (c.shows a) = some a) ∧
      (∀ l, args[(p.refer n).1]? = some (.strs l) →
        ps = [] ∧ fn.variadic = true ∧ (p.refer n).1 + 1 = args.length) ∧
      Fits c fn args (p.refer n).2 ps

/-- The arguments that the parts put in their places. -/
def put {α : Type} (args : List (Val α)) : Nat → List Part → List (Val α) → List (Val α)
  | _, [], cur => cur
  | n, .lit _ :: ps, cur => put args n ps cur
  | n, p :: ps, cur => put args (p.refer n).2 ps
      (match args[(p.refer n).1]? with
        | some v => cur.set (p.refer n).1 v
        | none => cur)

/-- Every argument is the one that was sent or still fresh. -/
def Sound {α : Type} (c : Codec α) (args cur : List (Val α)) : Prop :=
  cur.length = args.length ∧ ∀ (i : Nat) (v : Val α), args[i]? = some v → cur[i]? = some v ∨ cur[i]? = some (c.fresh v.kind)

theorem sound_set {α : Type} {c : Codec α} {args cur : List (Val α)} (h : Sound c args cur) (i : Nat)
    (v : Val α) (hv : args[i]? = some v) : Sound c args (cur.set i v) := by
  refine ⟨by simpa using h.1, ?_⟩
  intro j w hw
  have hi : i < args.length := (List.getElem?_eq_some_iff.1 hv).1
  by_cases e : i = j
  · subst e
    obtain rfl : v = w := Option.some.inj (hv.symm.trans hw)
    exact Or.inl (by rw [List.getElem?_set_self (by rw [h.1]; exact hi)])
  · rw [List.getElem?_set_ne e]
    exact h.2 j w hw

theorem put_nil {α : Type} (c : Codec α) (fn : Fn) (args : List (Val α)) :
    ∀ (ps : List Part) (n : Nat) (cur : List (Val α)), Fits c fn args n ps → Sound c args cur →
      clientLoop c args (ps.map Part.text) n = some [] → put args n ps cur = cur
  | [], _, _, _, _, _ => rfl
  | .lit s :: ps, n, cur, ⟨ok, _⟩, _, h => by
    simp only [List.map_cons, Part.text] at h
    rw [client_lit c args s ok] at h
    cases e : clientLoop c args (ps.map Part.text) n <;> rw [e] at h <;> simp at h
  | .next :: ps, n, cur, ⟨hf, hnum, hstrs, hfit⟩, hs, h => put_nil_arg hf hstrs hfit hs (by simp) h (by simp [put])
  | .nth k :: ps, n, cur, ⟨hf, hnum, hstrs, hfit⟩, hs, h => put_nil_arg hf hstrs hfit hs (by simp) h (by simp [put])
where
  put_nil_arg {α : Type} {c : Codec α} {fn : Fn} {args : List (Val α)} {p : Part} {ps : List Part} {n : Nat}
      {cur : List (Val α)} (hf : p.found args.length n)
      (hstrs : ∀ l, args[(p.refer n).1]? = some (.strs l) →
        ps = [] ∧ fn.variadic = true ∧ (p.refer n).1 + 1 = args.length)
      (_hfit : Fits c fn args (p.refer n).2 ps) (hs : Sound c args cur) (hl : ∀ s, p ≠ .lit s)
      (h : clientLoop c args ((p :: ps).map Part.text) n = some [])
      (hput : put args n (p :: ps) cur = put args (p.refer n).2 ps
        (match args[(p.refer n).1]? with
          | some v => cur.set (p.refer n).1 v
          | none => cur)) : put args n (p :: ps) cur = cur := by
    have hlt := refer_lt _ _ _ hf hl
    have hv := List.getElem?_eq_getElem hlt
    rw [List.map_cons, client_arg c args p hl _ n hf hv] at h
    cases e : clientLoop c args (ps.map Part.text) (p.refer n).2 with
    | none => rw [e] at h; cases h
    | some ws =>
      rw [e] at h
      simp only [Option.map_some, Option.some.injEq, List.append_eq_nil_iff] at h
      cases hk : args[(p.refer n).1] with
      | str s => rw [hk] at h; simp [words] at h
      | num a => rw [hk] at h; simp [words] at h
      | strs l =>
        rw [hk] at h hv
        obtain rfl : l = [] := h.1
        obtain ⟨rfl, _⟩ := hstrs _ hv
        rw [hput, put, hv]
        simp only
        have : cur[(p.refer n).1]? = some (.strs []) := by
          rcases hs.2 _ _ hv with x | x
          · exact x
          · exact x
        apply List.ext_getElem?
        intro j
        by_cases e : (p.refer n).1 = j
        · subst e
          rw [this, List.getElem?_set_self (by rw [hs.1]; exact hlt)]
        · rw [List.getElem?_set_ne e]

theorem run_put {α : Type} (c : Codec α) (fn : Fn) (args : List (Val α)) (hk : fn.params = args.map Val.kind) :
    ∀ (ps : List Part) (n : Nat) (cur : List (Val α)) (ws : List Str), Fits c fn args n ps →
      Sound c args cur → clientLoop c args (ps.map Part.text) n = some ws → (ws ≠ [] ∨ ps = []) →
      runLoop c fn (ps.map Part.text) ws n cur = .call (put args n ps cur)
  | [], _, _, _, _, _, _, _ => rfl
  | .lit s :: ps, n, cur, ws, ⟨ok, hfit⟩, hs, h, _ => by
    simp only [List.map_cons, Part.text] at h ⊢
    rw [client_lit c args s ok] at h
    cases e : clientLoop c args (ps.map Part.text) n with
    | none => rw [e] at h; cases h
    | some ws' =>
      rw [e] at h
      obtain rfl : s :: ws' = ws := Option.some.inj h
      rw [run_lit c fn s ok, List.tail_cons, put]
      by_cases hw : ws' = []
      · subst hw
        rw [if_pos rfl, put_nil c fn args ps n cur hfit hs e]
      · rw [if_neg hw]
        exact run_put c fn args hk ps n cur ws' hfit hs e (Or.inl hw)
  | .next :: ps, n, cur, ws, ⟨hf, hnum, hstrs, hfit⟩, hs, h, hne =>
    arg hk hf hnum hstrs hfit hs (by simp) h (by simpa using hne) (by simp [put])
      (fun cur ws a b d => run_put c fn args hk ps _ cur ws hfit a b d)
  | .nth k :: ps, n, cur, ws, ⟨hf, hnum, hstrs, hfit⟩, hs, h, hne =>
    arg hk hf hnum hstrs hfit hs (by simp) h (by simpa using hne) (by simp [put])
      (fun cur ws a b d => run_put c fn args hk ps _ cur ws hfit a b d)
where
  arg {α : Type} {c : Codec α} {fn : Fn} {args : List (Val α)} (hk : fn.params = args.map Val.kind)
      {p : Part} {ps : List Part} {n : Nat} {cur : List (Val α)} {ws : List Str}
      (hf : p.found args.length n)
      (hnum : ∀ a, args[(p.refer n).1]? = some (.num a) → p = .next ∧ c.scans (c.shows a) = some a)
      (hstrs : ∀ l, args[(p.refer n).1]? = some (.strs l) →
        ps = [] ∧ fn.variadic = true ∧ (p.refer n).1 + 1 = args.length)
      (hfit : Fits c fn args (p.refer n).2 ps) (hs : Sound c args cur) (hl : ∀ s, p ≠ .lit s)
      (h : clientLoop c args ((p :: ps).map Part.text) n = some ws) (hne : ws ≠ [])
      (hput : put args n (p :: ps) cur = put args (p.refer n).2 ps
        (match args[(p.refer n).1]? with
          | some v => cur.set (p.refer n).1 v
          | none => cur))
      (ih : ∀ (cur : List (Val α)) (ws : List Str), Sound c args cur →
        clientLoop c args (ps.map Part.text) (p.refer n).2 = some ws → (ws ≠ [] ∨ ps = []) →
        runLoop c fn (ps.map Part.text) ws (p.refer n).2 cur = .call (put args (p.refer n).2 ps cur)) :
      runLoop c fn ((p :: ps).map Part.text) ws n cur = .call (put args n (p :: ps) cur) := by
    have hlt := refer_lt _ _ _ hf hl
    have hv := List.getElem?_eq_getElem hlt
    have hlen : fn.params.length = args.length := by rw [hk, List.length_map]
    have hf' : p.found fn.params.length n := by rw [hlen]; exact hf
    have hpk : fn.params[(p.refer n).1]? = some args[(p.refer n).1].kind := by
      rw [hk, List.getElem?_map, hv]; rfl
    rw [List.map_cons, client_arg c args p hl _ n hf hv] at h
    cases e : clientLoop c args (ps.map Part.text) (p.refer n).2 with
    | none => rw [e] at h; cases h
    | some ws' =>
      rw [e] at h
      simp only [Option.map_some, Option.some.injEq] at h
      rw [hput, hv, List.map_cons]
      simp only
      have key : ∀ (w : Str) (ws'' : List Str), ws = w :: ws'' →
          readArg c fn (p.refer n).1 p.text w (w :: ws'') = some args[(p.refer n).1] →
          (ws'' = ws' ∨ ps = []) →
          runLoop c fn (p.text :: List.map Part.text ps) ws n cur =
            Out.call (put args (p.refer n).2 ps (cur.set (p.refer n).1 args[(p.refer n).1])) := by
        intro w ws'' hws hr hd
        subst hws
        rw [run_arg c fn p hl _ w ws'' n cur _ hf' hr]
        have hs' := sound_set hs _ _ hv
        rcases hd with rfl | rfl
        · by_cases hw : ws'' = []
          · subst hw
            rw [if_pos rfl, put_nil c fn args ps _ _ hfit hs' e]
          · rw [if_neg hw]
            exact ih _ _ hs' e (Or.inl hw)
        · by_cases hw : ws'' = []
          · rw [if_pos hw]; rfl
          · rw [if_neg hw]; rfl
      cases hval : args[(p.refer n).1] with
      | str s =>
        rw [hval] at h hpk key
        refine key s ws' ?_ ?_ (Or.inl rfl)
        · rw [← h]; rfl
        · simp only [readArg, hpk, Val.kind]
      | num a =>
        rw [hval] at h hpk key hv
        obtain ⟨hp, hc⟩ := hnum a hv
        refine key (c.shows a) ws' ?_ ?_ (Or.inl rfl)
        · rw [← h]; rfl
        · simp only [readArg, hpk, Val.kind]
          rw [if_pos (by rw [hp]; rfl), hc]; rfl
      | strs l =>
        rw [hval] at h hpk key hv
        obtain ⟨hps, hvar, hlast⟩ := hstrs l hv
        subst hps
        have hws' : ws' = [] := by
          simp only [List.map_nil, clientLoop, Option.some.injEq] at e; exact e.symm
        subst hws'
        simp only [words, List.append_nil] at h
        subst h
        cases l with
        | nil => exact absurd rfl hne
        | cons w l =>
          refine key w l rfl ?_ (Or.inr rfl)
          simp only [readArg, hpk, Val.kind]
          rw [if_pos (by simp [hvar, hlen, hlast])]

/-- The arguments that the parts mention. -/
def mentions : Nat → List Part → List Nat
  | _, [] => []
  | n, .lit _ :: ps => mentions n ps
  | n, p :: ps => (p.refer n).1 :: mentions (p.refer n).2 ps

theorem put_get {α : Type} (args : List (Val α)) : ∀ (ps : List Part) (n : Nat) (cur : List (Val α)) (i : Nat),
    cur.length = args.length → (i ∈ mentions n ps ∨ cur[i]? = args[i]?) →
    (put args n ps cur)[i]? = args[i]?
  | [], n, cur, i, _, h => by
    rcases h with h | h
    · simp [mentions] at h
    · exact h
  | .lit s :: ps, n, cur, i, hl, h => put_get args ps n cur i hl h
  | .next :: ps, n, cur, i, hl, h => by
    rw [put.eq_def]
    exact step hl h (by simp [mentions]) (fun cur hl h => put_get args ps _ cur i hl h)
  | .nth k :: ps, n, cur, i, hl, h => by
    rw [put.eq_def]
    exact step hl h (by simp [mentions]) (fun cur hl h => put_get args ps _ cur i hl h)
where
  step {α : Type} {args : List (Val α)} {p : Part} {ps : List Part} {n : Nat} {cur : List (Val α)} {i : Nat}
      (hl : cur.length = args.length) (h : i ∈ mentions n (p :: ps) ∨ cur[i]? = args[i]?)
      (hm : mentions n (p :: ps) = (p.refer n).1 :: mentions (p.refer n).2 ps)
      (ih : ∀ cur : List (Val α), cur.length = args.length →
        (i ∈ mentions (p.refer n).2 ps ∨ cur[i]? = args[i]?) →
        (put args (p.refer n).2 ps cur)[i]? = args[i]?) :
      (put args (p.refer n).2 ps (match args[(p.refer n).1]? with
        | some v => cur.set (p.refer n).1 v
        | none => cur))[i]? = args[i]? := by
    rw [hm] at h
    cases hv : args[(p.refer n).1]? with
    | none =>
      simp only
      apply ih cur hl
      rcases h with h | h
      · rcases List.mem_cons.1 h with rfl | h
        · right
          rw [hv]
          rw [List.getElem?_eq_none_iff] at hv ⊢
          omega
        · exact Or.inl h
      · exact Or.inr h
    | some v =>
      simp only
      apply ih _ (by simpa using hl)
      have hlt : (p.refer n).1 < args.length := (List.getElem?_eq_some_iff.1 hv).1
      by_cases e : (p.refer n).1 = i
      · right
        subst e
        rw [List.getElem?_set_self (by omega), hv]
      · rw [List.getElem?_set_ne e]
        rcases h with h | h
        · rcases List.mem_cons.1 h with rfl | h
          · exact absurd rfl e
          · exact Or.inl h
        · exact Or.inr h

theorem put_all {α : Type} (args cur : List (Val α)) (ps : List Part)
    (hl : cur.length = args.length) (h : ∀ i, i < args.length → i ∈ mentions 0 ps) :
    put args 0 ps cur = args := by
  apply List.ext_getElem?
  intro i
  apply put_get args ps 0 cur i hl
  by_cases hi : i < args.length
  · exact Or.inl (h i hi)
  · right
    rw [List.getElem?_eq_none (by omega), List.getElem?_eq_none (by omega)]

/-- From the client to the program, in general (used by the two theorems below). -/
theorem round_trip_fits {α : Type} (c : Codec α) (fns : List Fn) (fn : Fn) (prog : Str) (ps : List Part)
    (args : List (Val α)) (ws : List Str) (hne : ps ≠ []) (hok : ∀ p ∈ ps, p.Ok) (htag : fn.tag = tagOf ps)
    (hk : fn.params = args.map Val.kind) (hfit : Fits c fn args 0 ps)
    (hm : ∀ i, i < args.length → i ∈ mentions 0 ps)
    (hc : client c [] fn.tag args = some ws) (hw : ws ≠ [])
    (hd : dispatch fns (prog :: ws) = some fn) : run c fns (prog :: ws) = .call args := by
  rw [run, hd]
  simp only
  have hs : (split ',' fn.tag).headD [] = fn.tag := by
    rw [htag, split_none _ _ (tag_no_comma ps hok)]; rfl
  rw [hs, htag, split_tag ps hne hok, List.tail_cons]
  have hcl : clientLoop c args (ps.map Part.text) 0 = some ws := by
    rw [← hc, htag]
    simp only [client, if_true, if_neg (tag_ne_nil ps hne hok), split_tag ps hne hok]
  have hfr : Sound c args (fn.params.map c.fresh) := by
    rw [hk]
    refine ⟨by simp, ?_⟩
    intro i v hv
    right
    simp [hv]
  rw [run_put c fn args hk ps 0 _ ws hfit hfr hcl (Or.inl hw), put_all args _ ps hfr.1 hm]

theorem mentions_next : ∀ (ps : List Part) (n i : Nat), (∀ k, Part.nth k ∉ ps) → n ≤ i → i < n + nexts ps →
    i ∈ mentions n ps
  | [], n, i, _, a, b => by simp [nexts] at b; omega
  | .lit s :: ps, n, i, h, a, b => mentions_next ps n i (fun k x => h k (by simp [x])) a (by simpa [nexts] using b)
  | .next :: ps, n, i, h, a, b => by
    rw [mentions]
    · by_cases e : i = n
      · subst e; exact List.mem_cons_self
      · refine List.mem_cons_of_mem _ (mentions_next ps (n + 1) i (fun k x => h k (by simp [x])) (by omega) ?_)
        simp only [nexts, List.countP_cons] at b ⊢
        simp at b
        omega
    · simp
  | .nth k :: ps, n, i, h, _, _ => absurd (by simp) (h k)

theorem fits_next {α : Type} (c : Codec α) (fn : Fn) (args : List (Val α))
    (hnum : ∀ a, .num a ∈ args → c.scans (c.shows a) = some a)
    (hstrs : ∀ i l, args[i]? = some (.strs l) → i + 1 = args.length ∧ fn.variadic = true) :
    ∀ (ps : List Part) (n : Nat), (∀ p ∈ ps, p.Ok) → (∀ k, Part.nth k ∉ ps) → n + nexts ps = args.length →
      ((∃ l, .strs l ∈ args) → nexts ps = 0 ∨ ps.getLast? = some .next) → Fits c fn args n ps
  | [], _, _, _, _, _ => trivial
  | .lit s :: ps, n, hok, h, hn, hv => by
    have e : nexts (.lit s :: ps) = nexts ps := by simp [nexts]
    refine ⟨hok _ (by simp), fits_next c fn args hnum hstrs ps n (fun p hp => hok p (by simp [hp]))
      (fun k x => h k (by simp [x])) (by omega) ?_⟩
    intro hx
    rcases hv hx with a | a
    · exact Or.inl (by omega)
    · cases ps with
      | nil => simp at a
      | cons q qs => exact Or.inr (by rw [List.getLast?_cons_cons] at a; exact a)
  | .next :: ps, n, hok, h, hn, hv => by
    have e : nexts (.next :: ps) = nexts ps + 1 := by simp [nexts]
    refine ⟨show n < args.length by omega, ?_, ?_, ?_⟩
    · intro a ha
      exact ⟨rfl, hnum a (List.mem_of_getElem? ha)⟩
    · intro l hl
      obtain ⟨h1, h2⟩ := hstrs _ l hl
      refine ⟨?_, h2, h1⟩
      simp only [Part.refer] at h1
      have hz : nexts ps = 0 := by omega
      rcases hv ⟨l, List.mem_of_getElem? hl⟩ with a | a
      · omega
      · cases ps with
        | nil => rfl
        | cons q qs =>
          rw [List.getLast?_cons_cons] at a
          have : Part.next ∈ q :: qs := List.mem_of_getLast? a
          have : 0 < nexts (q :: qs) := List.countP_pos_iff.2 ⟨_, this, by simp⟩
          omega
    · refine fits_next c fn args hnum hstrs ps (n + 1) (fun p hp => hok p (by simp [hp]))
        (fun k x => h k (by simp [x])) (by omega) ?_
      intro hx
      rcases hv hx with a | a
      · omega
      · cases ps with
        | nil => exact Or.inl rfl
        | cons q qs => exact Or.inr (by rw [List.getLast?_cons_cons] at a; exact a)
  | .nth k :: ps, n, _, h, _, _ => absurd (by simp) (h k)

/-- C85, partial: the program gets the arguments that the client was called with, for every tag of
words and `%v` (one for each argument) and all strings, values that `fmt` prints and reads back, and a
last variadic list of strings, if the program takes the words for this command. -/
theorem round_trip_partial {α : Type} (c : Codec α) (fns : List Fn) (fn : Fn) (prog : Str) (ps : List Part)
    (args : List (Val α)) (ws : List Str) (hne : ps ≠ []) (hok : ∀ p ∈ ps, p.Ok) (htag : fn.tag = tagOf ps)
    (hk : fn.params = args.map Val.kind) (hnth : ∀ k, Part.nth k ∉ ps) (hcount : nexts ps = args.length)
    (hnum : ∀ a, .num a ∈ args → c.scans (c.shows a) = some a)
    (hstrs : ∀ i l, args[i]? = some (.strs l) → i + 1 = args.length ∧ fn.variadic = true ∧ ps.getLast? = some .next)
    (hc : client c [] fn.tag args = some ws) (hw : ws ≠ [])
    (hd : dispatch fns (prog :: ws) = some fn) : run c fns (prog :: ws) = .call args := by
  refine round_trip_fits c fns fn prog ps args ws hne hok htag hk ?_ ?_ hc hw hd
  · refine fits_next c fn args hnum (fun i l h => ⟨(hstrs i l h).1, (hstrs i l h).2.1⟩) ps 0 hok hnth (by omega) ?_
    rintro ⟨l, hl⟩
    obtain ⟨i, hi⟩ := List.getElem?_of_mem hl
    exact Or.inr (hstrs i l hi).2.2
  · intro i hi
    exact mentions_next ps 0 i hnth (by omega) (by omega)

theorem mentions_nth : ∀ (ps : List Part) (i : Nat), Part.next ∉ ps → .nth (i + 1) ∈ ps → i ∈ mentions 0 ps
  | [], _, _, h => by simp at h
  | .lit s :: ps, i, hn, h => mentions_nth ps i (fun x => hn (by simp [x])) (by simpa using h)
  | .next :: ps, i, hn, _ => absurd (by simp) hn
  | .nth k :: ps, i, hn, h => by
    rw [mentions]
    · rcases List.mem_cons.1 h with e | h
      · simp only [Part.nth.injEq] at e
        subst e
        simp [Part.refer]
      · exact List.mem_cons_of_mem _ (mentions_nth ps i (fun x => hn (by simp [x])) h)
    · simp

theorem fits_nth {α : Type} (c : Codec α) (fn : Fn) (args : List (Val α)) (hstr : ∀ v ∈ args, ∃ s, v = .str s) :
    ∀ ps : List Part, (∀ p ∈ ps, p.Ok) → Part.next ∉ ps → (∀ k, .nth k ∈ ps → 1 ≤ k ∧ k ≤ args.length) →
      Fits c fn args 0 ps
  | [], _, _, _ => trivial
  | .lit s :: ps, hok, hn, hr => ⟨hok _ (by simp), fits_nth c fn args hstr ps (fun p hp => hok p (by simp [hp]))
      (fun x => hn (by simp [x])) (fun k x => hr k (by simp [x]))⟩
  | .next :: ps, _, hn, _ => absurd (by simp) hn
  | .nth k :: ps, hok, hn, hr => by
    obtain ⟨a, b⟩ := hr k (by simp)
    refine ⟨⟨a, by omega⟩, ?_, ?_, fits_nth c fn args hstr ps (fun p hp => hok p (by simp [hp]))
      (fun x => hn (by simp [x])) (fun k x => hr k (by simp [x]))⟩
    · intro x hx
      obtain ⟨s, e⟩ := hstr _ (List.mem_of_getElem? hx)
      cases e
    · intro x hx
      obtain ⟨s, e⟩ := hstr _ (List.mem_of_getElem? hx)
      cases e

/-- C85, partial: the same for numbered placeholders in any order, if all arguments are strings and
each has its number. -/
theorem round_trip_numbered_partial {α : Type} (c : Codec α) (fns : List Fn) (fn : Fn) (prog : Str)
    (ps : List Part) (args : List (Val α)) (ws : List Str) (hne : ps ≠ []) (hok : ∀ p ∈ ps, p.Ok)
    (htag : fn.tag = tagOf ps) (hk : fn.params = args.map Val.kind) (hnext : Part.next ∉ ps)
    (hr : ∀ k, .nth k ∈ ps ↔ 1 ≤ k ∧ k ≤ args.length) (hstr : ∀ v ∈ args, ∃ s, v = .str s)
    (hc : client c [] fn.tag args = some ws) (hw : ws ≠ [])
    (hd : dispatch fns (prog :: ws) = some fn) : run c fns (prog :: ws) = .call args := by
  refine round_trip_fits c fns fn prog ps args ws hne hok htag hk
    (fits_nth c fn args hstr ps hok hnext fun k h => (hr k).1 h) ?_ hc hw hd
  intro i hi
  exact mentions_nth ps i hnext ((hr (i + 1)).2 ⟨by omega, by omega⟩)

/-- A codec for the examples: numbers in unary. -/
def unary : Codec Nat := ⟨fun n => List.replicate n 'I', fun s => some s.length, 0⟩

example : run unary [⟨tagOf [.lit "add".toList, .next, .next, .next], [.str, .num, .strs], true⟩]
    ("prog".toList :: (client unary [] (tagOf [.lit "add".toList, .next, .next, .next])
      [.str "x".toList, .num 3, .strs ["y".toList, "z".toList]]).getD []) =
    .call [.str "x".toList, .num 3, .strs ["y".toList, "z".toList]] := by decide +kernel

example : run unary [⟨tagOf [.lit "pos".toList, .nth 2, .nth 1], [.str, .str], false⟩]
    ["prog".toList, "pos".toList, "x".toList, "y".toList] =
    .call [.str "y".toList, .str "x".toList] := by decide +kernel

/-- C85 fails: a number that has a numbered placeholder is refused by the program, whatever it is. -/
theorem numbered_numbers_refused {α : Type} (c : Codec α) (w : Str) :
    run c [⟨tagOf [.lit "n".toList, .nth 1], [.num], false⟩] ["prog".toList, "n".toList, w] = .error := by
  have hd : dispatch [⟨tagOf [.lit "n".toList, .nth 1], [.num], false⟩] ["prog".toList, "n".toList, w] =
      some ⟨tagOf [.lit "n".toList, .nth 1], [.num], false⟩ := by rfl
  rw [run, hd]
  rfl

/-- C85 fails: a command without words and with an empty variadic list shows the help instead. -/
theorem empty_shows_help : run unary [⟨tagOf [.next], [.strs], true⟩]
    ("prog".toList :: (client unary [] (tagOf [.next]) [.strs []]).getD []) = .help := by decide +kernel

/-- C85 fails: a list of strings that is not variadic is refused by the program. -/
theorem slices_refused : run unary [⟨tagOf [.next], [.strs], false⟩]
    ("prog".toList :: (client unary [] (tagOf [.next]) [.strs ["a".toList]]).getD []) = .error := by decide +kernel

/-- C85: a single command is found by its own words. -/
theorem alone_found {α : Type} (c : Codec α) (fn : Fn) (prog : Str) (p : Part) (ps : List Part)
    (args : List (Val α)) (ws : List Str) (hok : ∀ q ∈ p :: ps, q.Ok) (htag : fn.tag = tagOf (p :: ps))
    (hc : client c [] fn.tag args = some ws) (hw : ws ≠ []) : dispatch [fn] (prog :: ws) = some fn := by
  refine (dispatch_iff [fn] prog ws hw fn).2 ⟨0, rfl, fn, rfl, ?_, ?_, by simp⟩
  · rw [htag, score, split_tag _ (by simp) hok, List.map_cons, scoreFrom.eq_def]
    simp only
    cases p with
    | lit s =>
      have hp := percent_text (.lit s) (hok _ (by simp))
      simp only at hp
      rw [if_neg (by rw [hp]; simp)]
      have hcl : clientLoop c args ((Part.lit s :: ps).map Part.text) 0 = some ws := by
        rw [← hc, htag]
        simp only [client, if_true, if_neg (tag_ne_nil _ (by simp) hok), split_tag _ (by simp) hok]
      simp only [List.map_cons, Part.text] at hcl
      rw [client_lit c args s (hok _ (by simp))] at hcl
      cases e : clientLoop c args (ps.map Part.text) 0 with
      | none => rw [e] at hcl; cases hcl
      | some ws' =>
        rw [e] at hcl
        obtain rfl := Option.some.inj hcl
        simp only [Part.text, if_true]
        omega
    | next => rw [if_pos (by rfl)]; omega
    | nth k => rw [if_pos (by rw [percent_text _ (hok _ (by simp))])]; omega
  · intro j g hg
    cases j with
    | zero => simp only [List.getElem?_cons_zero, Option.some.injEq] at hg; subst hg; exact Nat.le_refl _
    | succ j => simp at hg

end Verif.Cmdl
