import Verif.Rest.MuxModel
import Verif.Rest.MuxSpec
import Mathlib.Data.List.Induction
/-!
Lemmas about the router: reading and writing of patterns, and the tree built from a table.
-/
namespace Verif.Rest
open Spec

variable {H : Type}

/-! ## Strings -/

theorem cut_append (sep : Char) (a b : Str) (h : sep ∉ a) :
    cut sep (a ++ sep :: b) = (a, b, true) := by
  induction a with
  | nil => simp [cut]
  | cons c a ih =>
    simp only [List.mem_cons, not_or] at h
    rw [List.cons_append, cut, if_neg (fun e => h.1 e.symm), ih h.2]

theorem cut_none (sep : Char) (a : Str) (h : sep ∉ a) : cut sep a = (a, [], false) := by
  induction a with
  | nil => simp [cut]
  | cons c a ih =>
    simp only [List.mem_cons, not_or] at h
    rw [cut, if_neg (fun e => h.1 e.symm), ih h.2]

/-- What `cut` puts before the separator has none, so joining and cutting again changes
nothing (path.go:47 followed by path.go:27). -/
theorem cut_before (sep : Char) (s : Str) : sep ∉ (cut sep s).1 := by
  induction s with
  | nil => simp [cut]
  | cons c s ih =>
    rw [cut]; split
    · simp
    · next h => simp only [List.mem_cons, not_or]; exact ⟨fun e => h e.symm, ih⟩

theorem cut_rejoin (method rest : Str) (h : ' ' ∉ method) :
    cut ' ' (method ++ ' ' :: rest) = (method, rest, true) := cut_append _ _ _ h

theorem trimSlash_cons (s : Str) : trimSlash ('/' :: s) = s := rfl

theorem trimSlash_of (s : Str) (h : s.head? ≠ some '/') : trimSlash s = s := by
  unfold trimSlash
  split
  · simp at h
  · rfl

/-! ## Maps -/

theorem find_set_self (r : Routes H) (k : Str) (n : Node H) : (r.set k n).find k = some n := by
  induction r using Routes.rec (motive_1 := fun _ => True) with
  | leaf => trivial
  | mux => trivial
  | nil => simp [Routes.set, Routes.find]
  | cons k' n' rest _ ih =>
    simp only [Routes.set]
    split
    · next h => simp [Routes.find, h]
    · next h => simp [Routes.find, h, ih]

theorem find_set_ne (r : Routes H) (k k' : Str) (n : Node H) (hk : k ≠ k') :
    (r.set k n).find k' = r.find k' := by
  induction r using Routes.rec (motive_1 := fun _ => True) with
  | leaf => trivial
  | mux => trivial
  | nil => simp [Routes.set, Routes.find, hk]
  | cons k'' n' rest _ ih =>
    simp only [Routes.set]
    split
    · next h => subst h; simp [Routes.find, hk]
    · simp only [Routes.find, ih]

theorem serveKey_eq (r : Routes H) (k : Str) (req : Req) :
    r.serveKey k req = (r.find k).map (fun n => n.serve req) := by
  induction r using Routes.rec (motive_1 := fun _ => True) with
  | leaf => trivial
  | mux => trivial
  | nil => simp [Routes.serveKey, Routes.find]
  | cons k' n' rest _ ih =>
    simp only [Routes.serveKey, Routes.find]
    split <;> simp [ih]

theorem serveParam_eq (r : Routes H) (this : Str) (req : Req) :
    r.serveParam this req = (r.find []).map (fun n => n.serve (bindValues n this req)) := by
  induction r using Routes.rec (motive_1 := fun _ => True) with
  | leaf => trivial
  | mux => trivial
  | nil => simp [Routes.serveParam, Routes.find]
  | cons k' n' rest _ ih =>
    simp only [Routes.serveParam, Routes.find]
    split <;> simp [ih]

/-! ## Registration on segments -/

def segKey : Seg → Str
  | .lit s => s
  | .par _ => []

def segName : Seg → Str
  | .lit _ => []
  | .par n => n

theorem segOf_text (s : Seg) (h : CleanPat s) : segOf s.text = (segKey s, segName s) := by
  cases s with
  | lit s => simp only [segOf, Seg.text, segKey, segName]; exact if_neg h.2
  | par n =>
    have hn : n ≠ [] := h.1
    have : 0 < n.length := List.length_pos_iff.mpr hn
    have hl : ('{' :: (n ++ ['}'])).getLast? = some '}' := by
      rw [← List.cons_append, List.getLast?_append]; rfl
    simp [segOf, Seg.text, segKey, segName, this, hl]

theorem text_clean (s : Seg) (h : CleanPat s) : CleanSeg s.text := by
  cases s with
  | lit s => exact h.1
  | par n => refine ⟨by simp [Seg.text], ?_⟩
             have := h.2
             simp [Seg.text, this]

/-- Registration of a pattern given by its segments. -/
def ins (m : Str) (h : H) : List Seg → Routes H → Routes H
  | [], r => r.set m (.leaf h)
  | s :: ss, r =>
    r.set (segKey s) (.mux (ins m h ss (childOf r (segKey s)).1)
      (if segKey s = [] then (childOf r (segKey s)).2 ++ [segName s] else (childOf r (segKey s)).2))

theorem cut_path (s : Str) (ss : List Str) (h : CleanSeg s) :
    ∃ b, cut '/' (s ++ pathText ss) = (s, trimSlash (pathText ss), b) ∧
      (b = false ↔ ss = []) := by
  cases ss with
  | nil => exact ⟨false, by simpa [pathText, trimSlash] using cut_none '/' s h.2, by simp⟩
  | cons t ts =>
    refine ⟨true, ?_, by simp⟩
    simp only [pathText, List.cons_append, trimSlash_cons]
    exact cut_append '/' s _ h.2

theorem handlePath_slash (m : Str) (h : H) (p : Str) (r : Routes H) (hp : p.head? ≠ some '/') :
    handlePath m ('/' :: p) h r = handlePath m p h r := by
  rw [handlePath.eq_def m ('/' :: p), handlePath.eq_def m p]
  rw [trimSlash_cons, trimSlash_of p hp]

theorem head_clean (s rest : Str) (h : CleanSeg s) : (s ++ rest).head? ≠ some '/' := by
  cases s with
  | nil => exact absurd rfl h.1
  | cons c s => simp; rintro rfl; exact h.2 (by simp)

theorem handlePath_segs (m : Str) (h : H) (ss : List Seg) (hc : ∀ s ∈ ss, CleanPat s) :
    ∀ r : Routes H, handlePath m (trimSlash (pathText (ss.map Seg.text))) h r = ins m h ss r := by
  induction ss with
  | nil => intro r; rw [handlePath.eq_def]; simp [pathText, trimSlash, ins]
  | cons s ss ih =>
    intro r
    have h1 := text_clean s (hc s (by simp))
    rw [handlePath.eq_def]
    simp only [List.map_cons, pathText, List.cons_append, trimSlash_cons]
    rw [trimSlash_of _ (head_clean _ _ h1)]
    obtain ⟨b, hb, _⟩ := cut_path s.text (ss.map Seg.text) h1
    have hne : s.text ++ pathText (ss.map Seg.text) ≠ [] := by simp [h1.1]
    simp only [hb, segOf_text s (hc s (by simp)), ih (fun x hx => hc x (by simp [hx])), hne,
      ne_eq, not_false_eq_true, dite_true, ins]

theorem handle_route (r : Route H) (t : Routes H) (hc : ∀ s ∈ r.segs, CleanPat s)
    (hm : ' ' ∉ r.method) : handle t r.pattern r.handler = ins r.method r.handler r.segs t := by
  unfold handle Route.pattern
  simp only [cut_append ' ' r.method _ hm, if_true]
  rw [← handlePath_segs _ _ _ hc]
  cases hs : r.segs with
  | nil => simp only [if_true, List.map_nil, pathText]
           rw [handlePath_slash _ _ _ _ (by simp)]; rfl
  | cons s ss =>
    rw [if_neg (by simp), List.map_cons, pathText, List.cons_append, trimSlash_cons]
    exact handlePath_slash _ _ _ _ (head_clean _ _ (text_clean s (hc s (by simp [hs]))))

/-! ## The tree of a table -/

def insAll (rs : List (Route H)) : Routes H :=
  rs.foldl (fun t r => ins r.method r.handler r.segs t) .nil

theorem insAll_snoc (rs : List (Route H)) (r : Route H) :
    insAll (rs ++ [r]) = ins r.method r.handler r.segs (insAll rs) := by
  simp [insAll]

theorem router_eq (rs : List (Route H)) (hc : CleanTable rs) :
    router (rs.map (fun r => (r.pattern, r.handler))) = .mux (insAll rs) [] := by
  unfold router insAll
  congr 1
  rw [List.foldl_map]
  have := hc.segs
  have h2 := hc.method
  clear hc
  generalize Routes.nil = t
  induction rs generalizing t with
  | nil => rfl
  | cons r rs ih =>
    simp only [List.foldl_cons]
    rw [handle_route r t (this r (by simp)) (h2 r (by simp)).2]
    exact ih (fun x hx => this x (by simp [hx])) (fun x hx => h2 x (by simp [hx])) _

/-- The routes that go on with key `k`, without that segment. -/
def tails (k : Str) : List (Route H) → List (Route H)
  | [] => []
  | r :: rs => match r.segs with
    | [] => tails k rs
    | s :: ss => if segKey s = k then { r with segs := ss } :: tails k rs else tails k rs

/-- The names of the parameters at the front of the routes. -/
def names : List (Route H) → List Str
  | [] => []
  | r :: rs => match r.segs with
    | .par n :: _ => n :: names rs
    | _ => names rs

/-- The handler registered last for a method at the end of the pattern. -/
def lastLeaf (m : Str) : List (Route H) → Option H
  | [] => none
  | r :: rs => match lastLeaf m rs with
    | some h => some h
    | none => if r.segs = [] ∧ r.method = m then some r.handler else none

theorem tails_snoc (k : Str) (rs : List (Route H)) (r : Route H) :
    tails k (rs ++ [r]) = tails k rs ++ tails k [r] := by
  induction rs with
  | nil => rfl
  | cons x xs ih =>
    simp only [List.cons_append, tails]
    split
    · exact ih
    · split
      · simp [ih, tails]
      · exact ih

theorem names_snoc (rs : List (Route H)) (r : Route H) :
    names (rs ++ [r]) = names rs ++ names [r] := by
  induction rs with
  | nil => rfl
  | cons x xs ih =>
    simp only [List.cons_append, names]
    split <;> simp [ih, names]

theorem lastLeaf_snoc (m : Str) (rs : List (Route H)) (r : Route H) :
    lastLeaf m (rs ++ [r]) =
      if r.segs = [] ∧ r.method = m then some r.handler else lastLeaf m rs := by
  induction rs with
  | nil => simp [lastLeaf]
  | cons x xs ih =>
    simp only [List.cons_append, lastLeaf, ih]
    by_cases h : r.segs = [] ∧ r.method = m
    · simp only [if_pos h]
    · simp only [if_neg h]

theorem mem_tails {k : Str} {rs : List (Route H)} {r : Route H} :
    r ∈ tails k rs ↔ ∃ s, segKey s = k ∧ { r with segs := s :: r.segs } ∈ rs := by
  induction rs with
  | nil => simp [tails]
  | cons x xs ih =>
    rw [tails]
    split
    · next h =>
      rw [ih]
      constructor
      · rintro ⟨s, h1, h2⟩; exact ⟨s, h1, by simp [h2]⟩
      · rintro ⟨s, h1, h2⟩
        rcases List.mem_cons.mp h2 with h3 | h3
        · subst h3; simp at h
        · exact ⟨s, h1, h3⟩
    · next s ss h =>
      split
      · next hk =>
        rw [List.mem_cons, ih]
        constructor
        · rintro (h1 | ⟨s', h1, h2⟩)
          · subst h1
            refine ⟨s, hk, List.mem_cons.mpr (Or.inl ?_)⟩
            cases x; simp_all
          · exact ⟨s', h1, by simp [h2]⟩
        · rintro ⟨s', h1, h2⟩
          rcases List.mem_cons.mp h2 with h3 | h3
          · left; subst h3; simp at h; cases r; simp_all
          · right; exact ⟨s', h1, h3⟩
      · next hk =>
        rw [ih]
        constructor
        · rintro ⟨s, h1, h2⟩; exact ⟨s, h1, by simp [h2]⟩
        · rintro ⟨s', h1, h2⟩
          rcases List.mem_cons.mp h2 with h3 | h3
          · subst h3; simp at h; rw [h.1] at h1; exact absurd h1 hk
          · exact ⟨s', h1, h3⟩

theorem _root_.Verif.Rest.Spec.CleanTable.tails {rs : List (Route H)} (hc : CleanTable rs) (k : Str) :
    CleanTable (tails k rs) := by
  constructor
  · intro r hr s hs
    obtain ⟨t, _, h⟩ := mem_tails.mp hr
    exact hc.segs _ h s (by simp [hs])
  · intro r hr
    obtain ⟨t, _, h⟩ := mem_tails.mp hr
    exact hc.method { r with segs := t :: r.segs } h
  · intro r hr r' hr' l hl
    obtain ⟨t, _, h⟩ := mem_tails.mp hr
    obtain ⟨t', _, h'⟩ := mem_tails.mp hr'
    exact hc.apart _ h _ h' l (by simp [hl])

theorem _root_.Verif.Rest.Spec.CleanTable.of_subset {rs rs' : List (Route H)} (hc : CleanTable rs)
    (h : ∀ r ∈ rs', r ∈ rs) : CleanTable rs' :=
  ⟨fun r hr => hc.segs r (h r hr), fun r hr => hc.method r (h r hr),
   fun r hr r' hr' => hc.apart r (h r hr) r' (h r' hr')⟩

/-- What the router of a table holds under a key. -/
def slot (k : Str) (rs : List (Route H)) : Option (Node H) :=
  if tails k rs = [] then (lastLeaf k rs).map .leaf
  else some (.mux (insAll (tails k rs)) (if k = [] then names rs else []))

theorem lit_ne {rs : List (Route H)} (hc : CleanTable rs) {r : Route H} (hr : r ∈ rs)
    {l : Str} {ss : List Seg} (h : r.segs = .lit l :: ss) : l ≠ [] :=
  ((hc.segs r hr (.lit l) (by simp [h])).1).1

theorem tails_method {rs : List (Route H)} (hc : CleanTable rs) (r : Route H) (hr : r ∈ rs) :
    tails r.method rs = [] := by
  rw [List.eq_nil_iff_forall_not_mem]
  intro x hx
  obtain ⟨s, hs, h⟩ := mem_tails.mp hx
  cases s with
  | lit l => exact hc.apart _ h r hr l (by simp) hs
  | par n => exact (hc.method r hr).1 hs.symm

theorem lastLeaf_mem {m : Str} {rs : List (Route H)} {h : H} (e : lastLeaf m rs = some h) :
    ∃ r ∈ rs, r.segs = [] ∧ r.method = m ∧ r.handler = h := by
  induction rs with
  | nil => simp [lastLeaf] at e
  | cons x xs ih =>
    simp only [lastLeaf] at e
    split at e
    · next h' e' =>
      obtain ⟨r, hr, h1⟩ := ih (by rw [e']; exact e)
      exact ⟨r, by simp [hr], h1⟩
    · split at e
      · next hx => exact ⟨x, by simp, hx.1, hx.2, by simpa using e⟩
      · cases e

theorem names_nil {rs : List (Route H)} (h : tails [] rs = []) (hc : CleanTable rs) :
    names rs = [] := by
  induction rs with
  | nil => rfl
  | cons x xs ih =>
    have hx := hc.of_subset (rs' := xs) (fun r hr => by simp [hr])
    rw [tails] at h
    rw [names]
    split at h
    · next e => rw [e]; exact ih h hx
    · next s ss e =>
      split at h
      · cases h
      · next hk =>
        cases s with
        | lit l => rw [e]; exact ih h hx
        | par n => exact absurd rfl hk

theorem find_insAll (rs : List (Route H)) (hc : CleanTable rs) (k : Str) :
    (insAll rs).find k = slot k rs := by
  induction rs using List.reverseRecOn generalizing k with
  | nil => simp [insAll, Routes.find, slot, tails, lastLeaf]
  | append_singleton rs r ih =>
    have hcr := hc.of_subset (rs' := rs) (fun x hx => by simp [hx])
    rw [insAll_snoc]
    cases hs : r.segs with
    | nil =>
      rw [ins]
      have ht : tails k (rs ++ [r]) = tails k rs := by
        rw [tails_snoc]; simp [tails, hs]
      have hn : names (rs ++ [r]) = names rs := by
        rw [names_snoc]; simp [names, hs]
      by_cases hk : r.method = k
      · subst hk
        rw [find_set_self, slot, if_pos (tails_method hc r (by simp)), lastLeaf_snoc]
        simp [hs]
      · rw [find_set_ne _ _ _ _ hk, ih hcr]
        simp only [slot, ht, lastLeaf_snoc, hs, hk, hn, and_false, if_false]
    | cons s ss =>
      rw [ins]
      have hlast : ∀ k, lastLeaf k (rs ++ [r]) = lastLeaf k rs := by
        intro k; rw [lastLeaf_snoc]; simp [hs]
      have hchild : childOf (insAll rs) (segKey s) =
          (insAll (tails (segKey s) rs), if segKey s = [] then names rs else []) := by
        unfold childOf
        rw [ih hcr]
        unfold slot
        split
        · next h h1 => 
          split at h1
          · cases hl : lastLeaf (segKey s) rs <;> rw [hl] at h1 <;> simp at h1
          · simp at h1; obtain ⟨rfl, rfl⟩ := h1; rfl
        · next h1 =>
          split at h1
          · next ht =>
            rw [ht]
            simp only [insAll, List.foldl_nil, Prod.mk.injEq, true_and]
            split
            · next h0 => rw [names_nil (h0 ▸ ht) hcr]
            · rfl
          · exact absurd rfl (h1 _ _)
      by_cases hk : segKey s = k
      · subst hk
        have hne : tails (segKey s) (rs ++ [r]) ≠ [] := by rw [tails_snoc]; simp [tails, hs]
        rw [find_set_self, slot, hchild, if_neg hne]
        congr 2
        · rw [tails_snoc]
          simp only [tails, hs, if_true]
          rw [insAll_snoc]
        · split
          · next h0 =>
            rw [names_snoc]
            congr 1
            cases s with
            | lit l => exact absurd h0 (lit_ne hc (r := r) (by simp) hs)
            | par n => simp [names, hs, segName]
          · rfl
      · rw [find_set_ne _ _ _ _ hk, ih hcr]
        have ht : tails k (rs ++ [r]) = tails k rs := by
          rw [tails_snoc]; simp [tails, hs, hk]
        have hn : k = [] → names (rs ++ [r]) = names rs := by
          intro h0; rw [names_snoc]
          cases s with
          | lit l => simp [names, hs]
          | par n => exact absurd h0.symm hk
        simp only [slot, ht, hlast]
        split
        · rfl
        · split
          · next h0 => rw [hn h0]
          · rfl

/-! ## Requests -/

theorem requestPath_cons (s : Str) (ss : List Str) :
    requestPath (s :: ss) = '/' :: (s ++ pathText ss) := by
  simp [requestPath, pathText]

theorem thisOf_cons (req : Req) (s : Str) (ss : List Str) (hs : CleanSeg s)
    (hp : req.path = requestPath (s :: ss)) : thisOf req = s := by
  unfold thisOf
  rw [hp, requestPath_cons, trimSlash_cons]
  obtain ⟨b, hb, _⟩ := cut_path s ss hs
  simp [hb, hs.1]

theorem down_cons (req : Req) (s : Str) (ss : List Str) (hs : CleanSeg s)
    (hp : req.path = requestPath (s :: ss)) :
    down req = { req with rawPath := req.path, path := requestPath ss } := by
  unfold down
  congr 1
  rw [hp, requestPath_cons, trimSlash_cons]
  obtain ⟨b, hb, h2⟩ := cut_path s ss hs
  simp only [hb]
  cases ss with
  | nil => simp [h2.mpr rfl, requestPath]
  | cons t ts =>
    have : b = true := by
      cases b with
      | true => rfl
      | false => exact absurd (h2.mp rfl) (by simp)
    simp [this, requestPath, pathText, trimSlash]

theorem thisOf_nil (req : Req) (hp : req.path = requestPath []) : thisOf req = req.method := by
  simp [thisOf, hp, requestPath, trimSlash, cut]

theorem down_nil (req : Req) (hp : req.path = requestPath []) :
    down req = { req with rawPath := req.path, path := requestPath [] } := by
  simp [down, hp, requestPath, trimSlash, cut]

/-- `ServeHTTP` through what a table holds under a key. -/
theorem serve_insAll (rs : List (Route H)) (hc : CleanTable rs) (vs : List Str) (req : Req) :
    (Node.mux (insAll rs) vs).serve req =
      match slot (thisOf req) rs with
      | some n => n.serve (down req)
      | none => match slot [] rs with
        | some n => n.serve (bindValues n (thisOf req) (down req))
        | none => .notFound { req with path := req.rawPath } := by
  rw [Node.serve, serveKey_eq, serveParam_eq, find_insAll rs hc, find_insAll rs hc]
  cases slot (thisOf req) rs <;> simp
  cases slot [] rs <;> simp

theorem tails_eq_nil {k : Str} {rs : List (Route H)} :
    tails k rs = [] ↔ ∀ r ∈ rs, ∀ s ss, r.segs = s :: ss → segKey s ≠ k := by
  rw [List.eq_nil_iff_forall_not_mem]
  constructor
  · intro h r hr s ss hs hk
    refine h { r with segs := ss } (mem_tails.mpr ⟨s, hk, ?_⟩)
    have : { r with segs := s :: ss } = r := by cases r; simp_all
    simpa [this] using hr
  · intro h x hx
    obtain ⟨s, hk, h1⟩ := mem_tails.mp hx
    exact h _ h1 s x.segs rfl hk

theorem lastLeaf_none {m : Str} {rs : List (Route H)} (h : ∀ r ∈ rs, r.method ≠ m) :
    lastLeaf m rs = none := by
  cases e : lastLeaf m rs with
  | none => rfl
  | some x => obtain ⟨r, hr, _, h2, _⟩ := lastLeaf_mem e; exact absurd h2 (h r hr)

/-- Only the latest registration with a given shape and method counts. -/
theorem lastLeaf_append (m : Str) (a b : List (Route H)) :
    lastLeaf m (a ++ b) = (lastLeaf m b).or (lastLeaf m a) := by
  induction a with
  | nil => simp [lastLeaf]
  | cons x xs ih =>
    simp only [List.cons_append, lastLeaf, ih]
    cases lastLeaf m b <;> simp

theorem tails_append (k : Str) (a b : List (Route H)) :
    tails k (a ++ b) = tails k a ++ tails k b := by
  induction a with
  | nil => rfl
  | cons x xs ih =>
    simp only [List.cons_append, tails]
    split
    · exact ih
    · split
      · simp [ih]
      · exact ih

theorem tails_split {k : Str} {rs pre post : List (Route H)} {x : Route H}
    (h : tails k rs = pre ++ x :: post) :
    ∃ p s q, rs = p ++ { x with segs := s :: x.segs } :: q ∧ segKey s = k ∧ tails k q = post := by
  induction rs generalizing pre with
  | nil => simp [tails] at h
  | cons r rs ih =>
    rw [tails] at h
    split at h
    · obtain ⟨p, s, q, h1, h2⟩ := ih h
      exact ⟨r :: p, s, q, by simp [h1], h2⟩
    · next s ss hs =>
      split at h
      · next hk =>
        cases pre with
        | nil =>
          simp at h
          obtain ⟨rfl, h⟩ := h
          refine ⟨[], s, rs, ?_, hk, h⟩
          simp [← hs]
        | cons y ys =>
          simp at h
          obtain ⟨p, s, q, h1, h2⟩ := ih h.2
          exact ⟨r :: p, s, q, by simp [h1], h2⟩
      · obtain ⟨p, s, q, h1, h2⟩ := ih h
        exact ⟨r :: p, s, q, by simp [h1], h2⟩

end Verif.Rest
