import Verif.Rest.TagsModel
import Verif.Rest.TagsSpec
import Verif.Rest.MuxProps
/-!
# C46, C64: `rest` tags are read as they were written
-/
namespace Verif.Rest
open Spec

theorem split_none (sep : Char) (a : Str) (h : sep ∉ a) : split sep a = [a] := by
  induction a with
  | nil => rfl
  | cons c a ih =>
    simp only [List.mem_cons, not_or] at h
    rw [split, if_neg (fun e => h.1 e.symm), ih h.2]

theorem split_append (sep : Char) (a b : Str) (h : sep ∉ a) :
    split sep (a ++ sep :: b) = a :: split sep b := by
  induction a with
  | nil => simp [split]
  | cons c a ih =>
    simp only [List.mem_cons, not_or] at h
    rw [List.cons_append, split, if_neg (fun e => h.1 e.symm), ih h.2]

theorem split_commas : ∀ (ws : List Str), ws ≠ [] → (∀ w ∈ ws, ',' ∉ w) → split ',' (commas ws) = ws
  | [], h, _ => absurd rfl h
  | [x], _, h => split_none _ _ (h x (by simp))
  | x :: y :: xs, _, h => by
    rw [commas, split_append _ _ _ (h x (by simp)),
      split_commas (y :: xs) (by simp) (fun w hw => h w (by simp [hw]))]

theorem commas_no_blank : ∀ (ws : List Str), (∀ w ∈ ws, ' ' ∉ w) → ' ' ∉ commas ws
  | [], _ => by simp [commas]
  | [x], h => h x (by simp)
  | x :: y :: xs, h => by
    have h1 := h x (by simp)
    have h2 := commas_no_blank (y :: xs) (fun w hw => h w (by simp [hw]))
    simp [commas, h1, h2]

/-- The fields of a written tag. -/
theorem split_tag (t : Tag) (hc : t.Clean) : split ' ' t.text =
    t.method :: t.path ::
      ((match t.args with | some as => ['(' :: commas as ++ [')']] | none => []) ++
       (match t.results with | some rs => [commas rs] | none => [])) := by
  obtain ⟨m, p, as, rs⟩ := t
  have h1 := hc.method
  have h2 := hc.path
  have h3 := hc.args
  have h4 := hc.results
  simp only at h1 h2 h3 h4
  unfold Tag.text
  cases as with
  | none =>
    cases rs with
    | none => simp [split_append _ _ _ h1, split_none _ _ h2]
    | some rs =>
      have := commas_no_blank rs (fun w hw => ((h4 rs rfl).2.1 w hw).1)
      simp [split_append _ _ _ h1, split_append _ _ _ h2, split_none _ _ this]
  | some as =>
    have ha := commas_no_blank as (fun w hw => ((h3 as rfl).2 w hw).1)
    have ha' : ' ' ∉ '(' :: (commas as ++ [')']) := by simp [ha]
    cases rs with
    | none => simp [split_append _ _ _ h1, split_append _ _ _ h2, split_none _ _ ha']
    | some rs =>
      have := commas_no_blank rs (fun w hw => ((h4 rs rfl).2.1 w hw).1)
      simp only [List.append_assoc, List.cons_append, List.nil_append]
      rw [split_append _ _ _ h1, split_append _ _ _ h2]
      rw [show ('(' :: (commas as ++ ')' :: ' ' :: commas rs)) =
        ('(' :: (commas as ++ [')'])) ++ ' ' :: commas rs by simp,
        split_append _ _ _ ha', split_none _ _ this]

/-- C46: the path, the argument rules and the result rules of every tag that is written from
such parts read back as those parts, whether the optional ones are there or not; and the
method does if it is one of the seven that are known, or GET. -/
theorem tag_parts_partial (t : Tag) (hc : t.Clean) :
    pathOf t.text = t.path ∧
    argumentRulesOf t.text = some (t.args.getD []) ∧
    resultRulesOf t.text = some (t.results.getD []) ∧
    (t.method ∈ ["GET", "PUT", "POST", "DELETE", "HEAD", "OPTIONS", "PATCH", "CONNECT"].map
      String.toList → methodOf t.text = t.method) := by
  have hs := split_tag t hc
  have hne : t.text ≠ [] := by simp [Tag.text]
  refine ⟨?_, ?_, ?_, ?_⟩
  · rw [pathOf, hs]
  · rw [argumentRulesOf, hs]
    cases ha : t.args with
    | some as =>
      obtain ⟨h1, h2⟩ := hc.args as ha
      simp [split_commas as h1 (fun w hw => (h2 w hw).2)]
    | none =>
      cases hr : t.results with
      | none => simp
      | some rs =>
        obtain ⟨h1, h2, h3, h4⟩ := hc.results rs hr
        cases hcm : commas rs with
        | nil => exact absurd hcm h3
        | cons c r =>
          rw [hcm] at h4
          have : c ≠ '(' := by simpa using h4
          simp [hcm, this]
  · rw [resultRulesOf, hs]
    cases ha : t.args with
    | some as =>
      cases hr : t.results with
      | none => simp
      | some rs =>
        obtain ⟨h1, h2, _, _⟩ := hc.results rs hr
        simp [split_commas rs h1 (fun w hw => (h2 w hw).2)]
    | none =>
      cases hr : t.results with
      | none => simp
      | some rs =>
        obtain ⟨h1, h2, h3, h4⟩ := hc.results rs hr
        have hsp := split_commas rs h1 (fun w hw => (h2 w hw).2)
        cases hcm : commas rs with
        | nil => exact absurd hcm h3
        | cons c r =>
          rw [hcm] at h4 hsp
          have : c ≠ '(' := by simpa using h4
          simp [hcm, this, hsp]
  · intro hm
    rw [methodOf, if_neg hne, hs]
    simp only [knownMethods]
    revert hm
    generalize t.method = m
    intro hm
    simp only [List.map_cons, List.map_nil, List.mem_cons, List.not_mem_nil, or_false] at hm ⊢
    rcases hm with rfl | hm
    · split <;> rfl
    · rw [if_pos hm]

/-- `POST /users/{id=%v} (name,age) id,created`. -/
private def sampleTag : Tag :=
  ⟨"POST".toList, "/users/{id=%v}".toList, some ["name".toList, "age".toList],
   some ["id".toList, "created".toList]⟩

private theorem sampleTag_clean : sampleTag.Clean := by
  refine ⟨by decide, by decide, ?_, ?_⟩
  · intro as h
    simp [sampleTag] at h; subst h
    exact ⟨by decide, by unfold Word; decide⟩
  · intro rs h
    simp [sampleTag] at h; subst h
    exact ⟨by decide, by unfold Word; decide, by decide, by decide⟩

example : sampleTag.Clean ∧ sampleTag.text = "POST /users/{id=%v} (name,age) id,created".toList :=
  ⟨sampleTag_clean, by decide⟩

/-- C46 in full: also for a method with a content type, which rest.go:312-318 allows, and
without a panic on any tag. -/
def TagPartsClaim : Prop :=
  (∀ t : Tag, t.Clean → methodOf t.text = t.method) ∧
  (∀ s : Str, (argumentRulesOf s).isSome ∧ (resultRulesOf s).isSome)

/-- C46 fails: TRACE and methods with a content type are read as GET ... -/
theorem tag_method_fails : methodOf "POST(text/plain) /upload".toList = "GET".toList ∧
    methodOf "TRACE /x".toList = "GET".toList ∧ ¬ TagPartsClaim := by
  refine ⟨by decide, by decide, ?_⟩
  rintro ⟨h, _⟩
  have := h ⟨"TRACE".toList, "/x".toList, none, none⟩
    ⟨by decide, by decide, (by intro _ h; cases h), (by intro _ h; cases h)⟩
  revert this
  decide

/-- ... and a tag with two blanks in a row, or with a lone bracket, panics. -/
theorem tag_rules_panic : resultRulesOf "GET /users  (a)".toList = none ∧
    argumentRulesOf "GET /users (".toList = none := by decide

/-- Argument rules without a closing bracket lose their last byte instead of being refused. -/
theorem tag_unclosed_rules :
    argumentRulesOf "PUT /users (name,age".toList = some ["name".toList, "ag".toList] := by decide

/-! ## C64: the path of a tag becomes the pattern of the router -/

theorem dropPlain_append (a s : Str) (h : '=' ∉ a) : dropPlain (a ++ s) = a ++ dropPlain s := by
  induction a with
  | nil => rfl
  | cons c a ih =>
    simp only [List.mem_cons, not_or] at h
    rw [List.cons_append, dropPlain.eq_def]
    split
    · next heq => simp at heq; exact absurd heq.1.symm h.1
    · next heq => simp at heq; rw [← heq.1, ← heq.2, ih h.2]; rfl
    · next heq => cases heq

theorem cleanup_append (a s : Str) (h : '=' ∉ a) :
    cleanupPattern (a ++ s) = a ++ cleanupPattern s := by
  induction a with
  | nil => rfl
  | cons c a ih =>
    simp only [List.mem_cons, not_or] at h
    rw [List.cons_append, cleanupPattern, if_neg (by rintro ⟨e, _⟩; exact h.1 e.symm), ih h.2]
    rfl

theorem afterFormat_append (a s : Str) (h : '}' ∉ a) : afterFormat (a ++ '}' :: s) = some s := by
  induction a with
  | nil => rfl
  | cons c a ih =>
    simp only [List.mem_cons, not_or] at h
    rw [List.cons_append, afterFormat.eq_def]
    split
    · next heq => cases heq
    · next heq => simp at heq; exact absurd heq.1.symm h.1
    · next heq => simp at heq; rw [← heq.2]; exact ih h.2

/-- Text of a path made of segments. -/
def tagPath (ts : List TagSeg) : Str := pathText (ts.map TagSeg.text)

theorem digits_plain {d : Str} (h : ∀ c ∈ d, c.isDigit = true) : '=' ∉ d ∧ '}' ∉ d ∧ '?' ∉ d :=
  ⟨fun hm => by have := h _ hm; revert this; decide,
   fun hm => by have := h _ hm; revert this; decide,
   fun hm => by have := h _ hm; revert this; decide⟩

theorem route_seg (t : TagSeg) (hc : t.Clean) (s : Str) :
    cleanupPattern (dropPlain (t.text ++ s)) = t.seg.text ++ cleanupPattern (dropPlain s) := by
  cases t with
  | lit l => rw [TagSeg.text, dropPlain_append _ _ hc.1, cleanup_append _ _ hc.1]; rfl
  | field n =>
    have h : '=' ∉ '{' :: n ++ ['}'] := by have := hc.1; simp [this]
    rw [TagSeg.text, dropPlain_append _ _ h, cleanup_append _ _ h]; rfl
  | next n =>
    have h : '=' ∉ '{' :: n := by have := hc.1; simp [this]
    have e : TagSeg.text (.next n) ++ s = ('{' :: n) ++ ('=' :: '%' :: 'v' :: (['}'] ++ s)) := by
      simp [TagSeg.text]
    rw [e, dropPlain_append _ _ h, dropPlain, dropPlain_append _ _ (by decide), ← List.append_assoc,
      cleanup_append _ _ (by have := hc.1; simp [this])]
    rfl
  | nth n d =>
    have h : '=' ∉ '{' :: n := by have := hc.1.1; simp [this]
    have hd := digits_plain hc.2
    have e : TagSeg.text (.nth n d) ++ s =
        ('{' :: n) ++ ('=' :: ((['%', '['] ++ d ++ [']', 'v', '}']) ++ s)) := by
      simp [TagSeg.text]
    have e2 : dropPlain ('=' :: ((['%', '['] ++ d ++ [']', 'v', '}']) ++ s)) =
        '=' :: ((['%', '['] ++ d ++ [']', 'v']) ++ '}' :: dropPlain s) := by
      have e3 : dropPlain ('=' :: ('%' :: '[' :: (d ++ [']', 'v', '}'] ++ s))) =
          '=' :: dropPlain (('%' :: '[' :: (d ++ [']', 'v', '}'])) ++ s) := rfl
      simp only [List.cons_append, List.nil_append]
      rw [e3, dropPlain_append _ _ (by have := hd.1; simp [this])]
      simp
    rw [e, dropPlain_append _ _ h, e2, cleanup_append _ _ h, cleanupPattern, if_pos (by simp)]
    rw [afterFormat_append _ _ (by have := hd.2.1; simp [this])]
    simp [TagSeg.seg, Seg.text]

theorem route_pathText (ts : List TagSeg) (hc : ∀ t ∈ ts, t.Clean) :
    cleanupPattern (dropPlain (tagPath ts)) = pathText (ts.map (fun t => t.seg.text)) := by
  unfold tagPath
  induction ts with
  | nil => simp [pathText, dropPlain, cleanupPattern]
  | cons t ts ih =>
    simp only [List.map_cons, pathText]
    rw [List.cons_append, show ('/' :: (t.text ++ pathText (ts.map TagSeg.text))) =
      ['/'] ++ (t.text ++ pathText (ts.map TagSeg.text)) from rfl,
      dropPlain_append _ _ (by decide), cleanup_append _ _ (by decide),
      route_seg t (hc t (by simp)), ih (fun x hx => hc x (by simp [hx]))]
    simp

theorem tagPath_no_query (ts : List TagSeg) (hc : ∀ t ∈ ts, t.Clean) : '?' ∉ tagPath ts := by
  unfold tagPath
  induction ts with
  | nil => simp [pathText]
  | cons t ts ih =>
    have h1 := ih (fun x hx => hc x (by simp [hx]))
    have h2 : '?' ∉ t.text := by
      have := hc t (by simp)
      cases t with
      | lit l => exact this.2.2
      | field n => have := this.2.2; simp [TagSeg.text, this]
      | next n => have := this.2.2; simp [TagSeg.text, this]
      | nth n d => have h3 := this.1.2.2; have h4 := (digits_plain this.2).2.2
                   simp [TagSeg.text, h3, h4]
    simp [pathText, h1, h2]

/-- C64: for every path made of literals, `{Field}`, `{name=%v}` and `{name=%[n]v}`, with or
without a query, the pattern registered with the router is the route of those segments: every
format is gone, every name and literal is kept. -/
theorem route_path_partial (ts : List TagSeg) (hne : ts ≠ []) (hc : ∀ t ∈ ts, t.Clean)
    (query : Option Str) {H : Type} (method : Str) (h : H) :
    method ++ ' ' :: routePath (tagPath ts ++ (match query with | some q => '?' :: q | none => [])) =
      (Route.mk method (ts.map TagSeg.seg) h).pattern := by
  have hq := tagPath_no_query ts hc
  have e : (cut '?' (tagPath ts ++ (match query with | some q => '?' :: q | none => []))).1 = tagPath ts := by
    cases query with
    | none => simp [cut_none _ _ hq]
    | some q => simp [cut_append _ _ _ hq]
  rw [routePath, e, route_pathText ts hc, Route.pattern, if_neg (by simpa using hne)]
  simp [List.map_map, Function.comp_def]

/-- A concrete path with every kind of segment. -/
example : routePath "/users/{id=%v}/posts/{Slug}/{rev=%[3]v}?draft=%v".toList =
    "/users/{id}/posts/{Slug}/{rev}".toList := by
  have := route_path_partial [.lit "users".toList, .next "id".toList, .lit "posts".toList,
    .field "Slug".toList, .nth "rev".toList "3".toList] (by simp)
    (by intro t ht
        simp only [List.mem_cons, List.not_mem_nil, or_false] at ht
        rcases ht with rfl | rfl | rfl | rfl | rfl <;>
          simp only [TagSeg.Clean, Plain] <;> decide)
    (some "draft=%v".toList) [] (0 : Nat)
  rw [List.nil_append] at this
  exact (List.cons.inj this).2

/-- Without the hypothesis that literals have no equals sign the claim is false: a literal
`v=1` swallows the parameter that follows it. -/
theorem route_path_fails_equals :
    routePath "/v=1/{id}".toList = "/v}".toList := by
  rw [routePath]
  have e : dropPlain (cut '?' "/v=1/{id}".toList).1 = "/v=1/{id}".toList := by decide
  rw [e]
  show cleanupPattern (['/', 'v'] ++ ('=' :: (['1', '/', '{', 'i', 'd'] ++ ['}']))) = _
  rw [cleanup_append _ _ (by decide), cleanupPattern, if_pos (by simp),
    afterFormat_append _ _ (by decide)]
  simp [cleanupPattern]

end Verif.Rest
