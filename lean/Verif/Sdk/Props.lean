import Verif.Sdk.Lemmas

/-!
# The JavaScript client: C179, C180

The client generated for an API sends the requests its document describes, and delivers their results.
-/
namespace Verif.Sdk
open Spec

theorem text_eq (segs : List Str) : text segs = joined (elems segs) := by
  by_cases h : segs = []
  · subst h; rfl
  · simp [text, elems, h, joined]

theorem split_text (segs : List Str) (h : ∀ s ∈ segs, Name s) : split (text segs) = [] :: elems segs := by
  rw [text_eq]
  apply split_joined
  intro s hs
  by_cases he : segs = []
  · subst he; simp [elems] at hs; subst hs; simp
  · simp only [elems, he, if_false] at hs
    exact (name_nosep (h s hs)).1

theorem plain_raw (docs : List (Str × Item)) (hp : Plain docs) :
    PlainRaw (rawOf docs) ∧ ∀ d ∈ docs, (split d.1).head? = some [] := by
  constructor
  · intro r hr
    simp only [rawOf, List.mem_map] at hr
    obtain ⟨d, hd, rfl⟩ := hr
    obtain ⟨segs, e, hs⟩ := hp d hd
    simp only [e, split_text segs (fun s h => (hs s h).1), List.tail_cons]
    by_cases he : segs = []
    · subst he; exact Or.inl rfl
    · right
      simp only [elems, he, if_false]
      exact ⟨by simpa using he, hs⟩
  · intro d hd
    obtain ⟨segs, e, hs⟩ := hp d hd
    rw [e, split_text segs (fun s h => (hs s h).1)]
    rfl

theorem offered_iff (docs : List (Str × Item)) (hp : Plain docs) (segs : List Str) (hs : ∀ s ∈ segs, Name s) (m : Meth) :
    Offered docs (text segs) m ↔ RawOffered (rawOf docs) (elems segs) m := by
  constructor
  · rintro ⟨item, h1, h2⟩
    refine ⟨item, ?_, h2⟩
    simp only [rawOf, List.mem_map]
    exact ⟨_, h1, by simp [split_text segs hs]⟩
  · rintro ⟨item, h1, h2⟩
    simp only [rawOf, List.mem_map, Prod.mk.injEq] at h1
    obtain ⟨d, hd, e1, e2⟩ := h1
    obtain ⟨segs', e, hs'⟩ := hp d hd
    rw [e, split_text segs' (fun s h => (hs' s h).1), List.tail_cons] at e1
    refine ⟨item, ?_, h2⟩
    rw [text_eq, ← e1, ← text_eq, ← e, ← e2]
    exact hd

theorem goal_at (raw : Raw) (hp : PlainRaw raw) (segs : List Str) (m : Meth) (hs : [] ∉ segs) :
    goal raw (segs ++ [m.name]) = none ∨
      RawOffered raw (elems segs) m ∧ goal raw (segs ++ [m.name]) = some (valOf m (joined (elems segs))) := by
  by_cases h : RawOffered raw (elems segs) m
  · exact Or.inr ⟨h, goal_method hp segs hs m h⟩
  · left
    apply goal_none (by simp) (not_under_method hp segs [] m)
    intro m' p e _ ho
    have e1 := List.append_inj' e rfl
    have e2 : m = m' := meth_name_inj (by simpa using e1.2)
    rw [← e1.1, ← e2] at ho
    exact h ho

/-- C179. For every document whose paths are made of names, none of them a method's, and in whatever order Go visits the
tree: the client loads, and its functions but `GET` send exactly the requests of the document. -/
theorem client_sends_partial (docs : List (Str × Item)) (hp : Plain docs) : Sends docs (· ≠ .get) := by
  intro out he
  obtain ⟨h1, h2⟩ := plain_raw docs hp
  obtain ⟨client, hl, hq⟩ := root_runs h1 _ out (root_build docs h2) he
  refine ⟨client, hl, ?_⟩
  intro host segs m r hs hm
  have hne : [] ∉ segs := fun hc => (hs [] hc).1 rfl
  rw [offered_iff docs hp segs hs, invoke, hq]
  constructor
  · intro h
    rcases goal_at (rawOf docs) h1 segs m hne with hg | ⟨ho, hg⟩
    · rw [hg] at h; cases h
    · refine ⟨ho, ?_⟩
      rw [hg] at h
      cases m with
      | get => exact absurd rfl hm
      | _ =>
        simp only [valOf, Option.bind_some, fetches, template, Option.map_some, Option.some.injEq] at h
        rw [← h, text_eq]
  · rintro ⟨ho, rfl⟩
    rw [goal_method h1 segs hne m ho]
    cases m with
    | get => exact absurd rfl hm
    | _ => simp [valOf, fetches, template, text_eq]

/-- Three paths, one of them the root. -/
def sample : List (Str × Item) :=
  [("/".toList, fun m => m == .post), ("/users".toList, fun m => m == .post || m == .delete),
   ("/users/all".toList, fun m => m == .put)]

theorem name_of {s : Str} (h : s ≠ [] ∧ ((s.head?.map Char.isDigit).getD false) = false ∧
    ∀ c ∈ s, c.isAlphanum = true ∨ c = '_' ∨ c = '$') : Name s := by
  refine ⟨h.1, fun c hc => ?_, h.2.2⟩
  have := h.2.1
  rw [hc] at this
  simpa using this

theorem not_meth {s : Str} (h : s ∉ meths.map Meth.name) : ∀ m : Meth, s ≠ m.name := by
  rintro m rfl
  exact h (List.mem_map.2 ⟨m, mem_meths m, rfl⟩)

theorem sample_plain : Plain sample := by
  intro d hd
  simp only [sample, List.mem_cons, List.not_mem_nil, or_false] at hd
  rcases hd with rfl | rfl | rfl
  · exact ⟨[], rfl, by simp⟩
  · refine ⟨["users".toList], rfl, ?_⟩
    intro s hs
    simp only [List.mem_singleton] at hs
    subst hs
    exact ⟨name_of (by decide), not_meth (by decide)⟩
  · refine ⟨["users".toList, "all".toList], rfl, ?_⟩
    intro s hs
    simp only [List.mem_cons, List.not_mem_nil, or_false] at hs
    rcases hs with rfl | rfl
    · exact ⟨name_of (by decide), not_meth (by decide)⟩
    · exact ⟨name_of (by decide), not_meth (by decide)⟩

/-- Go can visit every tree. -/
theorem emits_some : ∀ (nested : Bool) (n : Node), ∃ out, Emits nested n out := by
  have main : (n : Node) → ∀ nested, ∃ out, Emits nested n out := by
    apply Node.rec (motive_1 := fun n => ∀ nested, ∃ out, Emits nested n out)
      (motive_2 := fun k => ∀ nested params, ∃ outs, EmitsKids nested params k outs)
    · intro path base item kids ih nested
      obtain ⟨lits, hl⟩ := ih nested false
      obtain ⟨params, hq⟩ := ih true true
      by_cases hp : pathOf nested path base = ['/'] ∨ pathOf nested path base = []
      · exact ⟨_, .bare hp hl (List.Perm.refl _)⟩
      · cases hk : kids.hasParam with
        | false => exact ⟨_, .object hp hk hl (List.Perm.refl _)⟩
        | true => exact ⟨_, .func hp hk hq (List.Perm.refl _) hl (List.Perm.refl _)⟩
    · intro nested params; exact ⟨[], .nil⟩
    · intro key n rest ihn ihr nested params
      obtain ⟨out, hn⟩ := ihn nested
      obtain ⟨outs, hr⟩ := ihr nested params
      by_cases hk : isParam key = params
      · exact ⟨_, .take hk hn hr⟩
      · refine ⟨_, .skip ?_ hr⟩
        revert hk
        cases isParam key <;> cases params <;> simp
  exact fun nested n => main n nested

example : Sends sample (· ≠ .get) ∧ (∃ out, Emits false (build sample) out) ∧
    Offered sample (text ["users".toList, "all".toList]) .put :=
  ⟨client_sends_partial sample sample_plain, emits_some _ _, ⟨_, List.mem_cons_of_mem _ (List.mem_cons_of_mem _ (by simp; exact ⟨rfl, rfl⟩)), rfl⟩⟩

/-- C179. A `GET` function throws: its query is made of a variable that is not defined. -/
theorem client_sends_fails_get (docs : List (Str × Item)) (hp : Plain docs) (segs : List Str) (hs : ∀ s ∈ segs, Name s)
    (ho : Offered docs (text segs) .get) : ¬ Sends docs (· = .get) := by
  intro h
  obtain ⟨out, he⟩ := emits_some false (build docs)
  obtain ⟨client, hl, hc⟩ := h out he
  have := (hc [] segs .get _ hs rfl).2 ⟨ho, rfl⟩
  obtain ⟨h1, h2⟩ := plain_raw docs hp
  obtain ⟨client', hl', hq⟩ := root_runs h1 _ out (root_build docs h2) he
  rw [hl] at hl'
  cases hl'
  rw [invoke, hq] at this
  rcases goal_at (rawOf docs) h1 segs .get (fun hc => (hs [] hc).1 rfl) with hg | ⟨_, hg⟩
  · rw [hg] at this; cases this
  · rw [hg] at this; cases this

example : ∃ docs, Plain docs ∧ Offered docs (text []) .get :=
  ⟨[(['/'], fun m => m == .get)], fun d hd => ⟨[], by simp at hd; rw [hd]; rfl, by simp⟩,
    ⟨fun m => m == .get, List.mem_singleton.2 rfl, rfl⟩⟩

/-- C179. A function for a path's parameter throws: the new `path` is made of itself. -/
theorem client_sends_fails_parameter (out : List Stmt)
    (h : Emits false (build [("/a/{id}".toList, fun m => m == .post)]) out) :
    ∃ client body, load out = some client ∧ client [['a']] = some (.func ['/', 'a'] body) ∧
      ∀ value, enter client [['a']] value = none := by
  have hb : build [("/a/{id}".toList, fun m => m == .post)] = .mk ['/'] ['/'] (fun _ => false)
      (.cons ['a'] (.mk ['/', 'a'] ['/', 'a'] (fun _ => false)
        (.cons "{id}".toList (.mk "/a/{id}".toList "/{id}".toList (fun m => false || m == .post) .nil) .nil)) .nil) := rfl
  rw [hb] at h
  cases h with
  | object hp _ _ _ => exact absurd (Or.inl rfl) hp
  | func hp _ _ _ _ _ => exact absurd (Or.inl rfl) hp
  | bare hp hl hperm =>
    cases hl with
    | skip hk _ => cases hk
    | take hk hn hr =>
      cases hr
      have := List.perm_singleton.1 hperm
      subst this
      cases hn with
      | bare hp _ _ => exact absurd hp (by decide)
      | object _ hk _ _ => cases hk
      | func _ _ hq hqerm hl2 hperm2 =>
        cases hl2 with
        | take hk _ _ => cases hk
        | skip _ hr2 =>
          cases hr2
          have := hperm2.eq_nil
          subst this
          cases hq with
          | skip hk _ => cases hk
          | take _ hn3 hr3 =>
            cases hr3
            have := List.perm_singleton.1 hqerm
            subst this
            cases hn3 with
            | object hp _ _ _ => exact absurd (Or.inr rfl) hp
            | func hp _ _ _ _ _ => exact absurd (Or.inr rfl) hp
            | bare hp3 hl3 hperm3 =>
              cases hl3
              have := hperm3.eq_nil
              subst this
              exact ⟨_, _, rfl, rfl, fun value => rfl⟩

/-- C179. A parameter at the root is left out: the client is empty. -/
theorem client_sends_fails_root (out : List Stmt) (h : Emits false (build [("/{id}".toList, fun m => m == .post)]) out) :
    out = [] := by
  have hb : build [("/{id}".toList, fun m => m == .post)] = .mk ['/'] ['/'] (fun _ => false)
      (.cons "{id}".toList (.mk "/{id}".toList "/{id}".toList (fun m => false || m == .post) .nil) .nil) := rfl
  rw [hb] at h
  cases h with
  | object hp _ _ _ => exact absurd (Or.inl rfl) hp
  | func hp _ _ _ _ _ => exact absurd (Or.inl rfl) hp
  | bare hp hl hperm =>
    cases hl with
    | take hk _ _ => cases hk
    | skip _ hr =>
      cases hr
      have := hperm.eq_nil
      subst this
      rfl

/-- The client of a path with one element. -/
theorem emits_one (s : Str) (item : Item) (hs : '/' ∉ s) (h0 : s ≠ []) (hpar : isParam s = false) (out : List Stmt)
    (h : Emits false (build [('/' :: s, item)]) out) :
    out = .object (converted ('/' :: s)) :: methods ('/' :: s) item := by
  have hb : build [('/' :: s, item)] = .mk ['/'] ['/'] (fun _ => false)
      (.cons s (.mk ('/' :: s) ('/' :: s) (fun m => false || item m) .nil) .nil) := by
    have : split ('/' :: s) = [[], s] := by simpa [joined] using split_joined [s] (by simpa using hs)
    simp [build, addItem, this, addAt, newNode, Kids.alter]
  rw [hb] at h
  cases h with
  | object hp _ _ _ => exact absurd (Or.inl rfl) hp
  | func hp _ _ _ _ _ => exact absurd (Or.inl rfl) hp
  | bare hp hl hperm =>
    cases hl with
    | skip hk _ => rw [hpar] at hk; cases hk
    | take hk hn hr =>
      cases hr
      have := List.perm_singleton.1 hperm
      subst this
      cases hn with
      | bare hp _ _ => exact absurd hp (by simp [pathOf, h0])
      | func _ hk _ _ _ _ => cases hk
      | object _ _ hl2 hperm2 =>
        cases hl2
        have := hperm2.eq_nil
        subst this
        simp [pathOf, methods]

/-- C179. A path that is not made of names makes the module one that does not load, with all its functions. -/
theorem client_sends_fails_dash (out : List Stmt) (h : Emits false (build [("/user-list".toList, fun m => m == .post)]) out) :
    load out = none := by
  rw [emits_one "user-list".toList _ (by decide) (by decide) (by decide) out h]
  decide

/-- C179. An element with the name of a method takes the place of the function. -/
theorem client_sends_fails_clash :
    ∃ docs out client, Offered docs ['/', 'a'] .post ∧ Emits false (build docs) out ∧ load out = some client ∧
      ∀ host, invoke host client [['a']] .post = none := by
  have hb : build [(['/', 'a'], fun m => m == .post), (['/', 'a', '/', 'P', 'O', 'S', 'T'], fun m => m == .put)] =
      .mk ['/'] ['/'] (fun _ => false)
        (.cons ['a'] (.mk ['/', 'a'] ['/', 'a'] (fun m => false || m == .post)
          (.cons ['P', 'O', 'S', 'T'] (.mk ['/', 'a', '/', 'P', 'O', 'S', 'T'] ['/', 'P', 'O', 'S', 'T']
            (fun m => false || m == .put) .nil) .nil)) .nil) := rfl
  refine ⟨[(['/', 'a'], fun m => m == .post), (['/', 'a', '/', 'P', 'O', 'S', 'T'], fun m => m == .put)],
    [.object ['.', 'a'], .call .post ['.', 'a'] ['/', 'a'], .object ['.', 'a', '.', 'P', 'O', 'S', 'T'],
      .call .put ['.', 'a', '.', 'P', 'O', 'S', 'T'] ['/', 'a', '/', 'P', 'O', 'S', 'T']], _,
    ⟨_, List.mem_cons_self, rfl⟩, ?_, rfl, fun host => rfl⟩
  rw [hb]
  exact .bare (perm := [(['a'], [.object ['.', 'a'], .call .post ['.', 'a'] ['/', 'a'],
        .object ['.', 'a', '.', 'P', 'O', 'S', 'T'],
        .call .put ['.', 'a', '.', 'P', 'O', 'S', 'T'] ['/', 'a', '/', 'P', 'O', 'S', 'T']])])
    (Or.inl rfl)
    (.take rfl
      (.object (perm := [(['P', 'O', 'S', 'T'], [.object ['.', 'a', '.', 'P', 'O', 'S', 'T'],
          .call .put ['.', 'a', '.', 'P', 'O', 'S', 'T'] ['/', 'a', '/', 'P', 'O', 'S', 'T']])]) (by decide) rfl
        (.take rfl (.object (perm := []) (by decide) rfl .nil (List.Perm.refl _)) .nil) (List.Perm.refl _)) .nil)
    (List.Perm.refl _)

/-- C180. A result other than 200 is delivered: nothing for 204, the JSON for the others; errors are rejected. -/
theorem results_delivered_partial (status : Nat) (h : status ≠ 200) :
    wrap status = if 200 ≤ status ∧ status ≤ 299 then (if status = 204 then .null else .json) else .rejected := by
  unfold wrap
  have e : (200 < status ∧ status < 300) ↔ (200 ≤ status ∧ status ≤ 299) := by omega
  simp only [e]

example : wrap 201 = .json ∧ wrap 204 = .null ∧ wrap 404 = .rejected := by decide

/-- C180. A function with a result is answered with 200, and the client rejects that. -/
theorem results_delivered_fails : wrap 200 = .rejected := by decide

end Verif.Sdk
