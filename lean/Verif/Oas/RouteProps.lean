import Verif.Oas.RouteSpec
import Verif.Rest.TagsProps

/-!
# C177: the document lists what is served
-/
namespace Verif.Oas
open Spec Verif.Rest Verif.Rest.Spec

/-! ## Tags -/

theorem cleanup_seg (t : TagSeg) (hc : t.Clean) (s : Str) :
    cleanupPattern (t.text ++ s) = t.seg.text ++ cleanupPattern s := by
  cases t with
  | lit l => rw [TagSeg.text, cleanup_append _ _ hc.1]; rfl
  | field n =>
    have h : '=' ∉ '{' :: n ++ ['}'] := by have := hc.1; simp [this]
    rw [TagSeg.text, cleanup_append _ _ h]; rfl
  | next n =>
    have h : '=' ∉ '{' :: n := by have := hc.1; simp [this]
    have e : TagSeg.text (.next n) ++ s = ('{' :: n) ++ ('=' :: (['%', 'v'] ++ '}' :: s)) := by
      simp [TagSeg.text]
    rw [e, cleanup_append _ _ h, cleanupPattern, if_pos (by simp), afterFormat_append _ _ (by decide)]
    simp [TagSeg.seg, Seg.text]
  | nth n d =>
    have h : '=' ∉ '{' :: n := by have := hc.1.1; simp [this]
    have hd := digits_plain hc.2
    have e : TagSeg.text (.nth n d) ++ s =
        ('{' :: n) ++ ('=' :: ((['%', '['] ++ d ++ [']', 'v']) ++ '}' :: s)) := by
      simp [TagSeg.text]
    rw [e, cleanup_append _ _ h, cleanupPattern, if_pos (by simp),
      afterFormat_append _ _ (by have := hd.2.1; simp [this])]
    simp [TagSeg.seg, Seg.text]

theorem cleanup_pathText (ts : List TagSeg) (hc : ∀ t ∈ ts, t.Clean) :
    cleanupPattern (tagPath ts) = pathText (ts.map (fun t => t.seg.text)) := by
  unfold tagPath
  induction ts with
  | nil => simp [pathText, cleanupPattern]
  | cons t ts ih =>
    simp only [List.map_cons, pathText]
    rw [List.cons_append, show ('/' :: (t.text ++ pathText (ts.map TagSeg.text))) =
      ['/'] ++ (t.text ++ pathText (ts.map TagSeg.text)) from rfl,
      cleanup_append _ _ (by decide), cleanup_seg t (hc t (by simp)), ih (fun x hx => hc x (by simp [hx]))]
    simp

theorem cut_pathQuery {ts query} (hc : ∀ t ∈ ts, t.Clean) : (cut '?' (pathQuery ts query)).1 = tagPath ts := by
  have hq := tagPath_no_query ts hc
  cases query with
  | none => exact congrArg Prod.fst (cut_none _ _ hq)
  | some q => exact congrArg Prod.fst (cut_append _ _ _ hq)

theorem method_plain {m : Str} (h : ∃ k ∈ methods, k.toList = m) : '(' ∉ m ∧ m ≠ [] ∧ m ∈ docMethods ∧ m ≠ ['-'] := by
  obtain ⟨k, hk, rfl⟩ := h
  simp only [methods, List.mem_cons, List.not_mem_nil, or_false] at hk
  rcases hk with rfl | rfl | rfl | rfl | rfl | rfl | rfl | rfl <;> decide

theorem servedMethod_text {m mime} (h : ∃ k ∈ methods, k.toList = m) : servedMethod (methodText m mime) = some m := by
  obtain ⟨h1, h2, -, -⟩ := method_plain h
  cases mime with
  | none => simp [methodText, servedMethod, h1, h2]
  | some mime =>
    have e : methodText m (some mime) = (m ++ '(' :: mime) ++ [')'] := by simp [methodText]
    rw [servedMethod, if_neg (by simp [methodText]), if_pos (by simp [methodText]),
      if_pos (by rw [e]; exact List.getLast?_concat), e, List.dropLast_concat, cut_append _ _ _ h1]

theorem docMethod_text {m mime} (h : ∃ k ∈ methods, k.toList = m) : (cut '(' (methodText m mime)).1 = m := by
  obtain ⟨h1, -, -, -⟩ := method_plain h
  cases mime with
  | none => exact congrArg Prod.fst (cut_none _ _ h1)
  | some mime =>
    have e : methodText m (some mime) = m ++ '(' :: (mime ++ [')']) := by simp [methodText]
    rw [e, cut_append _ _ _ h1]

theorem text_cut (t : Tag) (h : t.Clean) : ∃ rest, cut ' ' t.text = (t.method, rest, true) ∧ (cut ' ' rest).1 = t.path := by
  obtain ⟨m, p, args, results⟩ := t
  have hm := h.method
  have hp := h.path
  clear h
  simp only at hm hp
  unfold Tag.text
  cases args with
  | none =>
    cases results with
    | none => exact ⟨p, by simp [cut_append _ _ _ hm], by simp [cut_none _ _ hp]⟩
    | some rs => exact ⟨p ++ ' ' :: commas rs, by simp [cut_append _ _ _ hm], by simp [cut_append _ _ _ hp]⟩
  | some as =>
    cases results with
    | none =>
      exact ⟨p ++ ' ' :: '(' :: (commas as ++ [')']), by simp [cut_append _ _ _ hm], by simp [cut_append _ _ _ hp]⟩
    | some rs =>
      exact ⟨p ++ ' ' :: '(' :: (commas as ++ ')' :: ' ' :: commas rs), by simp [cut_append _ _ _ hm],
        by simp [cut_append _ _ _ hp]⟩

theorem tag_rest {f m ts} (h : TaggedWith f m ts) : f.rest ≠ [] ∧ f.rest ≠ ['-'] := by
  obtain ⟨mime, query, args, results, hm, hc, ht, e⟩ := h
  obtain ⟨rest, h1, -⟩ := text_cut _ ht
  rw [← e] at h1
  constructor <;> intro h <;> rw [h] at h1 <;> simp [cut] at h1

theorem servedAt_tag {f r} (h : At f r) : servedAt f = some (some r) := by
  obtain ⟨ts, h, hr⟩ := h
  obtain ⟨n1, n2⟩ := tag_rest h
  obtain ⟨mime, query, args, results, hm, hc, ht, e⟩ := h
  rw [servedAt, if_neg (by simp [n1, n2]), e, split_tag _ ht]
  simp only [servedMethod_text hm, routePath]
  rw [cut_pathQuery hc, route_pathText ts hc, ← hr]

theorem listedAt_tag {f r} (h : At f r) : listedAt f = some (if f.hidden then none else some r) := by
  obtain ⟨ts, h, hr⟩ := h
  obtain ⟨n1, n2⟩ := tag_rest h
  obtain ⟨mime, query, args, results, hm, hc, ht, e⟩ := h
  have ed : docTag f = f.rest := by simp [docTag, n1]
  rw [listedAt, ed, if_neg (by simp [n1, n2])]
  cases f.hidden
  · obtain ⟨rest, e1, e2⟩ := text_cut _ ht
    rw [e, e1]
    simp only at e2
    simp only [Bool.false_eq_true, if_false]
    rw [docMethod_text hm, if_pos (method_plain hm).2.2.1, e2, cut_pathQuery hc, cleanup_pathText ts hc, ← hr]
  · rfl

theorem servedAt_untagged {f} (h : Untagged f) : servedAt f = some none := by
  rcases h.2 with h | h <;> simp [servedAt, h]

theorem listedAt_untagged {f} (h : Untagged f) : listedAt f = some none := by
  rcases h.2 with h2 | h2 <;> simp [listedAt, docTag, h.1, h2]

/-! ## Collecting -/

theorem collect_some {at_ : Fn → Option (Option Route)} : ∀ {fs acc}, (∀ f ∈ fs, (at_ f).isSome = true) →
    ∃ S, collect at_ fs acc = some S
  | [], acc, _ => ⟨acc, rfl⟩
  | f :: fs, acc, h => by
    have hf := h f (by simp)
    have hr : ∀ g ∈ fs, (at_ g).isSome = true := fun g hg => h g (by simp [hg])
    simp only [collect]
    split
    · rename_i e; rw [e] at hf; cases hf
    · exact collect_some hr
    · exact collect_some hr

theorem collect_iff {at_ : Fn → Option (Option Route)} : ∀ {fs : List Fn} {acc S},
    (fs.Pairwise fun f g => ∀ r, ¬ (at_ f = some (some r) ∧ at_ g = some (some r))) →
    (∀ f ∈ fs, ∀ r, at_ f = some (some r) → acc r = none) →
    collect at_ fs acc = some S → ∀ r f, S r = some f ↔ acc r = some f ∨ (f ∈ fs ∧ at_ f = some (some r))
  | [], acc, S, _, _, h, r, f => by simp [collect] at h; subst h; simp
  | g :: fs, acc, S, hd, ha, h, r, f => by
    rw [List.pairwise_cons] at hd
    simp only [collect] at h
    split at h
    · cases h
    · rename_i e
      rw [collect_iff hd.2 (fun f hf => ha f (by simp [hf])) h r f]
      constructor
      · rintro (h | ⟨h1, h2⟩)
        · exact Or.inl h
        · exact Or.inr ⟨by simp [h1], h2⟩
      · rintro (h | ⟨h1, h2⟩)
        · exact Or.inl h
        · rcases List.mem_cons.1 h1 with rfl | h1
          · rw [e] at h2; cases h2
          · exact Or.inr ⟨h1, h2⟩
    · rename_i r0 e
      rw [collect_iff hd.2 ?_ h r f]
      · by_cases hr : r = r0
        · subst hr
          have := ha g (by simp) r e
          simp only [if_true, this, Option.some.injEq, List.mem_cons]
          constructor
          · rintro (rfl | ⟨h1, h2⟩)
            · exact Or.inr ⟨Or.inl rfl, e⟩
            · exact Or.inr ⟨Or.inr h1, h2⟩
          · rintro (h | ⟨rfl | h1, h2⟩)
            · cases h
            · exact Or.inl rfl
            · exact Or.inr ⟨h1, h2⟩
        · simp only [if_neg hr, List.mem_cons]
          constructor
          · rintro (h | ⟨h1, h2⟩)
            · exact Or.inl h
            · exact Or.inr ⟨Or.inr h1, h2⟩
          · rintro (h | ⟨rfl | h1, h2⟩)
            · exact Or.inl h
            · rw [e] at h2; cases h2; exact absurd rfl hr
            · exact Or.inr ⟨h1, h2⟩
      · intro f hf r' hr'
        by_cases h' : r' = r0
        · subst h'; exact absurd ⟨e, hr'⟩ (hd.1 f hf r')
        · simp only [if_neg h']; exact ha f (by simp [hf]) r' hr'

/-! ## The property -/

/-- If every function has a tag made of a method OpenAPI knows, a path and rules, or none, and no two have the same
route, then the server has every function at its route, and the document lists there those that are not hidden. -/
theorem document_lists_served_partial {fs : List Fn} (ht : ∀ f ∈ fs, Untagged f ∨ ∃ r, At f r)
    (hd : fs.Pairwise fun f g => ∀ r, ¬ (At f r ∧ At g r)) :
    ListsServed fs ∧ ∃ S, served fs = some S ∧ ∀ r f, S r = some f ↔ f ∈ fs ∧ ¬ Untagged f ∧ At f r := by
  have hs : ∀ f ∈ fs, ∀ r, servedAt f = some (some r) ↔ ¬ Untagged f ∧ At f r := by
    intro f hf r
    constructor
    · intro h
      rcases ht f hf with hu | ⟨r', hr'⟩
      · rw [servedAt_untagged hu] at h; cases h
      · refine ⟨fun hu => (by rw [servedAt_untagged hu] at h; cases h), ?_⟩
        rw [servedAt_tag hr'] at h; cases h; exact hr'
    · exact fun h => servedAt_tag h.2
  have hl : ∀ f ∈ fs, ∀ r, listedAt f = some (some r) ↔ servedAt f = some (some r) ∧ f.hidden = false := by
    intro f hf r
    rcases ht f hf with hu | ⟨r', hr'⟩
    · rw [servedAt_untagged hu, listedAt_untagged hu]; simp
    · rw [servedAt_tag hr', listedAt_tag hr']; cases f.hidden <;> simp
  have ss : ∀ f ∈ fs, (servedAt f).isSome = true := by
    intro f hf
    rcases ht f hf with hu | ⟨r', hr'⟩
    · rw [servedAt_untagged hu]; rfl
    · rw [servedAt_tag hr']; rfl
  have ls : ∀ f ∈ fs, (listedAt f).isSome = true := by
    intro f hf
    rcases ht f hf with hu | ⟨r', hr'⟩
    · rw [listedAt_untagged hu]; rfl
    · rw [listedAt_tag hr']; rfl
  have pw : ∀ gs : List Fn, gs.Perm fs →
      gs.Pairwise fun f g => ∀ r, ¬ (servedAt f = some (some r) ∧ servedAt g = some (some r)) := by
    intro gs hp
    have : fs.Pairwise fun f g => ∀ r, ¬ (servedAt f = some (some r) ∧ servedAt g = some (some r)) := by
      refine List.Pairwise.imp_of_mem ?_ hd
      intro f g hf hg h r hr
      exact h r ⟨((hs f hf r).1 hr.1).2, ((hs g hg r).1 hr.2).2⟩
    exact (hp.pairwise_iff (fun h r hr => h r hr.symm)).2 this
  constructor
  · intro gs hs' hp hp' S hS
    obtain ⟨D, hD⟩ := collect_some (at_ := listedAt) (acc := fun _ => none)
      (fun f hf => ls f (hp'.mem_iff.1 hf))
    refine ⟨D, hD, fun r f => ?_⟩
    have pl : hs'.Pairwise fun f g => ∀ r, ¬ (listedAt f = some (some r) ∧ listedAt g = some (some r)) := by
      refine List.Pairwise.imp_of_mem ?_ (pw hs' hp')
      intro f g hf hg h r hr
      exact h r ⟨((hl f (hp'.mem_iff.1 hf) r).1 hr.1).1, ((hl g (hp'.mem_iff.1 hg) r).1 hr.2).1⟩
    rw [collect_iff pl (by simp) hD r f, collect_iff (pw gs hp) (by simp) hS r f]
    simp only [reduceCtorEq, false_or]
    constructor
    · rintro ⟨h1, h2⟩
      have hm := hp'.mem_iff.1 h1
      obtain ⟨h3, h4⟩ := (hl f hm r).1 h2
      exact ⟨⟨hp.mem_iff.2 hm, h3⟩, h4⟩
    · rintro ⟨⟨h1, h2⟩, h3⟩
      have hm := hp.mem_iff.1 h1
      exact ⟨hp'.mem_iff.2 hm, (hl f hm r).2 ⟨h2, h3⟩⟩
  · obtain ⟨S, hS⟩ := collect_some (at_ := servedAt) (acc := fun _ => none) ss
    refine ⟨S, hS, fun r f => ?_⟩
    rw [collect_iff (pw fs (List.Perm.refl _)) (by simp) hS r f]
    simp only [reduceCtorEq, false_or]
    constructor
    · rintro ⟨h1, h2⟩; exact ⟨h1, (hs f h1 r).1 h2⟩
    · rintro ⟨h1, h2⟩; exact ⟨h1, (hs f h1 r).2 h2⟩

/-- `GET /u/{id=%v}?q=%v` and `PUT(text/plain) /u/{id=%[2]v} (a,b) c`, hidden. -/
def exampleFns : List Fn :=
  [⟨['A'], "GET /u/{id=%v}?q=%v".toList, [], false⟩,
   ⟨['B'], "PUT(text/plain) /u/{id=%[2]v} (a,b) c".toList, [], true⟩, ⟨['C'], [], [], false⟩]

private theorem exA : At ⟨['A'], "GET /u/{id=%v}?q=%v".toList, [], false⟩ ("GET".toList, "/u/{id}".toList) := by
  refine ⟨[.lit ['u'], .next ['i', 'd']], ⟨none, some "q=%v".toList, none, none, ⟨"GET", by decide, rfl⟩, ?_, ?_, by decide⟩, by decide⟩
  · intro t ht
    simp only [List.mem_cons, List.not_mem_nil, or_false] at ht
    rcases ht with rfl | rfl <;> simp only [TagSeg.Clean, Rest.Spec.Plain] <;> decide
  · exact ⟨by decide, by decide, by simp, by simp⟩

private theorem exB : At ⟨['B'], "PUT(text/plain) /u/{id=%[2]v} (a,b) c".toList, [], true⟩
    ("PUT".toList, "/u/{id}".toList) := by
  refine ⟨[.lit ['u'], .nth ['i', 'd'] ['2']], ⟨some "text/plain".toList, none, some [['a'], ['b']], some [['c']],
    ⟨"PUT", by decide, rfl⟩, ?_, ?_, by decide⟩, by decide⟩
  · intro t ht
    simp only [List.mem_cons, List.not_mem_nil, or_false] at ht
    rcases ht with rfl | rfl <;> simp only [TagSeg.Clean, Rest.Spec.Plain] <;> decide
  · refine ⟨by decide, by decide, ?_, ?_⟩
    · rintro as ⟨⟩; exact ⟨by decide, by simp [Word]⟩
    · rintro rs ⟨⟩; exact ⟨by decide, by simp [Word], by decide, by decide⟩

example : (∀ f ∈ exampleFns, Untagged f ∨ ∃ r, At f r) ∧ exampleFns.Pairwise fun f g => ∀ r, ¬ (At f r ∧ At g r) := by
  constructor
  · intro f hf
    simp only [exampleFns, List.mem_cons, List.not_mem_nil, or_false] at hf
    rcases hf with rfl | rfl | rfl
    · exact Or.inr ⟨_, exA⟩
    · exact Or.inr ⟨_, exB⟩
    · exact Or.inl ⟨rfl, Or.inl rfl⟩
  · simp only [exampleFns, List.pairwise_cons, List.mem_cons, List.not_mem_nil, or_false]
    refine ⟨?_, ?_, by simp, by simp⟩
    · rintro g (rfl | rfl) r ⟨h1, h2⟩
      · have a := servedAt_tag h1; rw [servedAt_tag exA] at a
        have b := servedAt_tag h2; rw [servedAt_tag exB] at b
        simp only [Option.some.injEq] at a b; rw [← a] at b; exact absurd b (by decide)
      · exact absurd (servedAt_tag h2) (by simp [servedAt])
    · rintro g rfl r ⟨h1, h2⟩
      exact absurd (servedAt_tag h2) (by simp [servedAt])

/-- Two functions with the same route: the document may list the one that is not served. -/
theorem document_lists_served_fails_duplicate (a b : Str) (hab : a ≠ b) :
    ¬ ListsServed [⟨a, "GET /".toList, [], false⟩, ⟨b, "GET /".toList, [], false⟩] := by
  intro h
  have e : ∀ n, servedAt ⟨n, "GET /".toList, [], false⟩ = some (some (['G', 'E', 'T'], ['/'])) := by
    intro n
    have e1 : split ' ' "GET /".toList = [['G', 'E', 'T'], ['/']] := by decide
    have e2 : routePath ['/'] = ['/'] := by simp [routePath, cut, dropPlain, cleanupPattern]
    rw [servedAt, if_neg (by simp), e1]
    simp [servedMethod, e2]
  have e' : ∀ n, listedAt ⟨n, "GET /".toList, [], false⟩ = some (some (['G', 'E', 'T'], ['/'])) := by
    intro n
    have e0 : docTag ⟨n, "GET /".toList, [], false⟩ = "GET /".toList := by
      unfold docTag; rw [if_neg (show ¬ ("GET /".toList = []) by decide)]
    have e1 : cut ' ' "GET /".toList = (['G', 'E', 'T'], ['/'], true) := by decide
    rw [listedAt, e0, if_neg (by simp), e1]
    simp [cut, docMethods, cleanupPattern]
  obtain ⟨D, hD, h⟩ := h _ [⟨b, "GET /".toList, [], false⟩, ⟨a, "GET /".toList, [], false⟩] (List.Perm.refl _)
    (List.Perm.swap _ _ _) _ (by simp only [served, collect, e]; rfl)
  simp only [listed, collect, e', Option.some.injEq] at hD
  subst hD
  have := (h (['G', 'E', 'T'], ['/']) ⟨a, "GET /".toList, [], false⟩).1 (by simp)
  simp [hab.symm] at this

/-- A function with an `http` tag and no `rest` tag is listed and not served. -/
theorem document_lists_served_fails_http (n : Str) : ¬ ListsServed [⟨n, [], "GET /".toList, false⟩] := by
  intro h
  have e' : listedAt ⟨n, [], "GET /".toList, false⟩ = some (some (['G', 'E', 'T'], ['/'])) := by
    have e0 : docTag ⟨n, [], "GET /".toList, false⟩ = "GET /".toList := by simp [docTag]
    have e1 : cut ' ' "GET /".toList = (['G', 'E', 'T'], ['/'], true) := by decide
    rw [listedAt, e0, if_neg (by simp), e1]
    simp [cut, docMethods, cleanupPattern]
  have e : servedAt ⟨n, [], "GET /".toList, false⟩ = some none := by simp [servedAt]
  obtain ⟨D, hD, h⟩ := h _ _ (List.Perm.refl _) (List.Perm.refl _) _ (by simp only [served, collect, e]; rfl)
  simp only [listed, collect, e', Option.some.injEq] at hD
  subst hD
  have := (h (['G', 'E', 'T'], ['/']) ⟨n, [], "GET /".toList, false⟩).1 (by simp)
  simp at this

/-- `CONNECT /` -/
def connect : Str := ['C', 'O', 'N', 'N', 'E', 'C', 'T', ' ', '/']

/-- An API with a method OpenAPI does not know has no document, and for that reason no server either. -/
theorem document_lists_served_fails_method (n : Str) : ¬ ListsServed [⟨n, connect, [], false⟩] := by
  intro h
  have e : servedAt ⟨n, connect, [], false⟩ = some (some (['C', 'O', 'N', 'N', 'E', 'C', 'T'], ['/'])) := by
    have e1 : split ' ' connect = [['C', 'O', 'N', 'N', 'E', 'C', 'T'], ['/']] := by decide
    have e2 : routePath ['/'] = ['/'] := by simp [routePath, cut, dropPlain, cleanupPattern]
    rw [servedAt, if_neg (by simp [connect]), e1]
    simp only [e2]
    rw [show servedMethod ['C', 'O', 'N', 'N', 'E', 'C', 'T'] = some ['C', 'O', 'N', 'N', 'E', 'C', 'T'] by decide]
  have e' : listedAt ⟨n, connect, [], false⟩ = none := by
    have e0 : docTag ⟨n, connect, [], false⟩ = connect := by
      unfold docTag; rw [if_neg (show ¬ (connect = []) by decide)]
    have e1 : cut ' ' connect = (['C', 'O', 'N', 'N', 'E', 'C', 'T'], ['/'], true) := by decide
    rw [listedAt, e0, if_neg (by simp [connect]), e1]
    simp only [Bool.false_eq_true, if_false]
    rw [if_neg (by decide)]
  obtain ⟨D, hD, -⟩ := h _ _ (List.Perm.refl _) (List.Perm.refl _) _ (by simp only [served, collect, e]; rfl)
  simp [listed, collect, e'] at hD

end Verif.Oas
