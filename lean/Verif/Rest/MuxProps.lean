import Verif.Rest.MuxLemmas
/-!
# C29, C63: routing of REST requests

The theorems are about `router`, the tree `rest.Handler` builds by calling `Handle` once per
pattern, and `serve`, its `ServeHTTP`.
-/
namespace Verif.Rest
open Spec

variable {H : Type}

/-- The request `METHOD /seg/seg/seg` as the router first sees it. -/
def requestFor (m : Str) (segs : List Str) : Req := { method := m, path := requestPath segs }

/-- The router of a table of routes. -/
def routerOf (rs : List (Route H)) : Node H := router (rs.map (fun r => (r.pattern, r.handler)))

/-- What is to be shown of a handled request: the handler, the method, and the values of the
path parameters. A parameter keeps its value unless a deeper parameter that is met on the
way has the same name. -/
private def Handled (rs : List (Route H)) (r : Route H) (segs : List Str) (req : Req) (o : Out H) :
    Prop :=
  ∃ req', o = .handled r.handler req' ∧ req'.method = req.method ∧ req'.path = ['/'] ∧
    (∀ (i : Nat) name v, r.segs[i]? = some (.par name) → segs[i]? = some v →
      (∀ j > i, ∀ r' ∈ rs, shape (r'.segs.take j) = shape (r.segs.take j) →
        r'.segs[j]? ≠ some (.par name)) →
      req'.pathValue name = v) ∧
    (∀ name, (∀ (j : Nat), ∀ r' ∈ rs, shape (r'.segs.take j) = shape (r.segs.take j) →
        r'.segs[j]? ≠ some (.par name)) → req'.pathValue name = req.pathValue name)

/-- The shape of one segment. -/
def sh1 : Seg → Option Str
  | .lit s => some s
  | .par _ => none

theorem shape_cons (s : Seg) (ss : List Seg) :
    shape (s :: ss) = sh1 s :: shape ss := by
  cases s <;> rfl

theorem pathValue_bind (vs : List Str) (this : Str) (req : Req) (name : Str)
    (r : Routes H) :
    (bindValues (Node.mux r vs) this req).pathValue name =
      if name ∈ vs then this else req.pathValue name := by
  simp only [bindValues, Req.pathValue, List.find?_append]
  by_cases h : name ∈ vs
  · rw [if_pos h]
    have : ∃ p, ((vs.map (fun n => (n, this))).reverse.find? (fun p => p.1 = name)) = some p ∧
        p.2 = this := by
      have : ((vs.map (fun n => (n, this))).reverse.find? (fun p => p.1 = name)).isSome := by
        rw [List.find?_isSome]
        exact ⟨(name, this), by simp [h], by simp⟩
      obtain ⟨p, hp⟩ := Option.isSome_iff_exists.mp this
      refine ⟨p, hp, ?_⟩
      have := List.mem_of_find?_eq_some hp
      simp at this
      obtain ⟨a, _, rfl⟩ := this
      rfl
    obtain ⟨p, hp, h2⟩ := this
    simp [hp, h2]
  · rw [if_neg h]
    have : ((vs.map (fun n => (n, this))).reverse.find? (fun p => p.1 = name)) = none := by
      rw [List.find?_eq_none]
      intro x hx
      simp at hx
      obtain ⟨a, ha, rfl⟩ := hx
      simp
      rintro rfl
      exact h ha
    simp [this]

theorem mem_names {rs : List (Route H)} {n : Str} :
    n ∈ names rs ↔ ∃ r ∈ rs, r.segs[0]? = some (.par n) := by
  induction rs with
  | nil => simp [names]
  | cons x xs ih =>
    rw [names]
    split
    · next m _ h => simp [ih, h, eq_comm]
    · next h =>
      rw [ih]
      constructor
      · rintro ⟨r, hr, h1⟩; exact ⟨r, by simp [hr], h1⟩
      · rintro ⟨r, hr, h1⟩
        rcases List.mem_cons.mp hr with rfl | h3
        · cases hs : r.segs with
          | nil => simp [hs] at h1
          | cons a b => simp [hs] at h1; subst h1; exact absurd hs (h _ _)
        · exact ⟨r, h3, h1⟩

private theorem complete (rs : List (Route H)) (hc : CleanTable rs) (r : Route H) (segs : List Str)
    (hcur : Current rs r) (hm : Matches r.segs segs) (hp : Preferred rs r.segs segs)
    (hseg : ∀ s ∈ segs, CleanSeg s ∧ ∀ r' ∈ rs, s ≠ r'.method)
    (vs : List Str) (req : Req) (hreq : req.path = requestPath segs) (hmet : req.method = r.method) :
    Handled rs r segs req ((Node.mux (insAll rs) vs).serve req) := by
  induction segs generalizing rs r req vs with
  | nil =>
    obtain ⟨pre, post, hrs, hpost⟩ := hcur
    have hr : r.segs = [] := by cases h : r.segs with
      | nil => rfl
      | cons a b => rw [h] at hm; cases hm
    rw [serve_insAll rs hc, thisOf_nil req hreq, hmet]
    have h1 : slot r.method rs = some (.leaf r.handler) := by
      rw [slot, if_pos (tails_method hc r (by simp [hrs]))]
      have h2 : lastLeaf r.method post = none := by
        cases e : lastLeaf r.method post with
        | none => rfl
        | some x =>
          obtain ⟨r', hr', h1, h2, _⟩ := lastLeaf_mem e
          exact absurd h2 (hpost r' hr' (by rw [h1, hr]))
      rw [hrs, lastLeaf_append]
      simp [lastLeaf, h2, hr]
    rw [h1]
    simp only [Node.serve]
    refine ⟨_, rfl, rfl, ?_, ?_, ?_⟩
    · rw [down_nil req hreq]; rfl
    · intro i name v h; simp [hr] at h
    · intro name _; rfl
  | cons s ss ih =>
    obtain ⟨pre, post, hrs, hpost⟩ := hcur
    have hmem : r ∈ rs := by simp [hrs]
    cases hrsegs : r.segs with
    | nil => rw [hrsegs] at hm; cases hm
    | cons p ps =>
      rw [hrsegs] at hm
      cases hm with
      | cons hsm hm' =>
      have hs := hseg s (by simp)
      rw [serve_insAll rs hc, thisOf_cons req s ss hs.1 hreq, down_cons req s ss hs.1 hreq]
      have hshape : ∀ (t : Seg), segKey t = segKey p → (∃ r' ∈ rs, ∃ ts, r'.segs = t :: ts) →
          sh1 t = sh1 p := by
        rintro t ht ⟨r', hr', ts, h⟩
        cases t with
        | lit a => cases p with
          | lit b => simp [segKey] at ht; simp [sh1, ht]
          | par b => simp [segKey] at ht
                     exact absurd ht (lit_ne hc hr' h)
        | par a => cases p with
          | lit b => simp [segKey] at ht
                     exact absurd ht (lit_ne hc hmem hrsegs)
          | par b => rfl
      -- one level down
      have key : ∀ (req2 : Req) (vs2 : List Str), req2.path = requestPath ss →
          req2.method = r.method →
          Handled (tails (segKey p) rs) { r with segs := ps } ss req2
            ((Node.mux (insAll (tails (segKey p) rs)) vs2).serve req2) := by
        intro req2 vs2 h1 h2
        refine ih _ (hc.tails _) _ ?_ hm' ?_ ?_ _ _ h1 h2
        · refine ⟨tails (segKey p) pre, tails (segKey p) post, ?_, ?_⟩
          · rw [hrs, tails_append]; congr 1
            simp [tails, hrsegs]
          · intro r' hr' hsh
            obtain ⟨t, ht, h3⟩ := mem_tails.mp hr'
            refine hpost { r' with segs := t :: r'.segs } h3 ?_
            rw [hrsegs, shape_cons, shape_cons]
            simp only at hsh
            rw [hsh, hshape t ht ⟨_, by rw [hrs]; exact List.mem_append_right _ (List.mem_cons_of_mem _ h3), _, rfl⟩]
        · intro i name v h3 h4 r' hr' hsh hlit
          obtain ⟨t, ht, h5⟩ := mem_tails.mp hr'
          refine hp (i + 1) name v (by simp [hrsegs, h3]) (by simp [h4]) _ h5 ?_ (by simpa using hlit)
          rw [hrsegs]
          simp only [List.take_succ_cons, shape_cons]
          rw [hsh, hshape t ht ⟨_, h5, _, rfl⟩]
        · intro x hx
          refine ⟨(hseg x (by simp [hx])).1, fun r' hr' => ?_⟩
          obtain ⟨t, _, h5⟩ := mem_tails.mp hr'
          exact (hseg x (by simp [hx])).2 { r' with segs := t :: r'.segs } h5
      have hne : tails (segKey p) rs ≠ [] := by
        intro h; exact tails_eq_nil.mp h r hmem p ps hrsegs rfl
      -- values set below concern the tails
      have below : ∀ name, (∀ j > 0, ∀ r' ∈ rs,
            shape (r'.segs.take j) = shape ((p :: ps).take j) → r'.segs[j]? ≠ some (.par name)) →
          ∀ (j : Nat), ∀ r' ∈ tails (segKey p) rs,
            shape (r'.segs.take j) = shape (ps.take j) → r'.segs[j]? ≠ some (.par name) := by
        intro name h j r' hr' hsh hpar
        obtain ⟨t, ht, h5⟩ := mem_tails.mp hr'
        refine h (j + 1) (by omega) _ h5 ?_ (by simpa using hpar)
        simp only [List.take_succ_cons, shape_cons]
        rw [hsh, hshape t ht ⟨_, h5, _, rfl⟩]
      cases hsm with
      | lit =>
        have hslot : slot s rs = some (.mux (insAll (tails s rs)) []) := by
          rw [slot, if_neg (show tails s rs ≠ [] from hne), if_neg hs.1.1]
        rw [hslot]
        obtain ⟨req', h1, h2, h3, h4, h5⟩ := key { req with rawPath := req.path, path := requestPath ss }
          [] rfl hmet
        refine ⟨req', h1, h2, h3, ?_, ?_⟩
        · intro i name v h6 h7 h8
          rw [hrsegs] at h6 h8
          cases i with
          | zero => simp at h6
          | succ i =>
            refine h4 i name v (by simpa using h6) (by simpa using h7) ?_
            intro j hj r' hr' hsh hpar
            obtain ⟨t, ht, h9⟩ := mem_tails.mp hr'
            refine h8 (j + 1) (by omega) _ h9 ?_ (by simpa using hpar)
            simp only [List.take_succ_cons, shape_cons]
            rw [hsh, hshape t ht ⟨_, h9, _, rfl⟩]
        · intro name h6
          rw [hrsegs] at h6
          exact h5 name (below name (fun j hj => h6 j))
      | par nm =>
        have hnos : tails s rs = [] := by
          rw [tails_eq_nil]
          intro r' hr' t ts ht hk
          cases t with
          | lit l =>
            simp only [segKey] at hk
            subst hk
            exact hp 0 nm l (by simp [hrsegs]) (by simp) r' hr' (by simp) (by simp [ht])
          | par l => exact hs.1.1 hk.symm
        have hslot : slot s rs = none := by
          rw [slot, if_pos hnos, lastLeaf_none (fun r' hr' => (hs.2 r' hr').symm)]; rfl
        have hslot2 : slot [] rs = some (.mux (insAll (tails [] rs)) (names rs)) := by
          rw [slot, if_neg (show tails [] rs ≠ [] from hne), if_pos rfl]
        rw [hslot, hslot2]
        obtain ⟨req', h1, h2, h3, h4, h5⟩ := key
          (bindValues (Node.mux (insAll (tails [] rs)) (names rs)) s
            { req with rawPath := req.path, path := requestPath ss }) (names rs) rfl hmet
        refine ⟨req', h1, h2, h3, ?_, ?_⟩
        · intro i name v h6 h7 h8
          rw [hrsegs] at h6 h8
          cases i with
          | zero =>
            simp at h6 h7
            subst h6 h7
            rw [h5 nm (below nm (fun j hj => h8 j hj)), pathValue_bind, if_pos]
            exact mem_names.mpr ⟨r, hmem, by simp [hrsegs]⟩
          | succ i =>
            refine h4 i name v (by simpa using h6) (by simpa using h7) ?_
            intro j hj r' hr' hsh hpar
            obtain ⟨t, ht, h9⟩ := mem_tails.mp hr'
            refine h8 (j + 1) (by omega) _ h9 ?_ (by simpa using hpar)
            simp only [List.take_succ_cons, shape_cons]
            rw [hsh, hshape t ht ⟨_, h9, _, rfl⟩]
        · intro name h6
          rw [hrsegs] at h6
          rw [h5 name (below name (fun j hj => h6 j)), pathValue_bind, if_neg]
          · rfl
          · intro hn
            obtain ⟨r', hr', h7⟩ := mem_names.mp hn
            exact h6 0 r' hr' (by simp) h7

/-- C29, first half: a request is handed to the handler of a matching route, provided no
literal of another route is preferred on the way: whichever routes and in whichever order
they were registered, the handler called is the one of that route, and every parameter of
the route reads back as the segment in its place (unless a deeper parameter of the same
name, of this route or of one that shares its path so far, was bound later). What is
missing from the full property is in `dispatch_fails`. -/
theorem dispatch_partial (rs : List (Route H)) (hc : CleanTable rs) (r : Route H)
    (segs : List Str) (hcur : Current rs r) (hm : Matches r.segs segs)
    (hp : Preferred rs r.segs segs)
    (hseg : ∀ s ∈ segs, CleanSeg s ∧ ∀ r' ∈ rs, s ≠ r'.method) :
    ∃ req', (routerOf rs).serve (requestFor r.method segs) = .handled r.handler req' ∧
      req'.method = r.method ∧
      ∀ (i : Nat) name v, r.segs[i]? = some (.par name) → segs[i]? = some v →
        (∀ j > i, ∀ r' ∈ rs, shape (r'.segs.take j) = shape (r.segs.take j) →
          r'.segs[j]? ≠ some (.par name)) →
        req'.pathValue name = v := by
  unfold routerOf
  rw [router_eq rs hc]
  obtain ⟨req', h1, h2, _, h3, _⟩ := complete rs hc r segs hcur hm hp hseg []
    (requestFor r.method segs) rfl rfl
  exact ⟨req', h1, h2, h3⟩

private theorem matches_cons_lift {p : Seg} {ps : List Seg} {s : Str} {ss : List Str}
    (h : SegMatches p s) (h2 : Matches ps ss) : Matches (p :: ps) (s :: ss) := .cons h h2

private theorem current_lift {rs : List (Route H)} {k : Str} {x : Route H}
    (hc : CleanTable rs) (h : Current (tails k rs) x) :
    ∃ s, segKey s = k ∧ Current rs { x with segs := s :: x.segs } := by
  obtain ⟨pre, post, h1, h2⟩ := h
  obtain ⟨p, s, q, h3, h4, h5⟩ := tails_split h1
  refine ⟨s, h4, p, q, h3, ?_⟩
  intro r' hr' hsh
  cases hr : r'.segs with
  | nil => rw [hr] at hsh; simp [shape] at hsh
  | cons t ts =>
    rw [hr, shape_cons, shape_cons] at hsh
    simp at hsh
    have hkt : segKey t = k := by
      rw [← h4]
      have hc1 := hsh.1
      cases t <;> cases s <;> simp_all [segKey, sh1]
    have : { r' with segs := ts } ∈ post := by
      rw [← h5]
      refine mem_tails.mpr ⟨t, hkt, ?_⟩
      have : { r' with segs := t :: ts } = r' := by cases r'; simp_all
      simpa [this] using hr'
    exact h2 { r' with segs := ts } this hsh.2

/-- The whole of what the router does with a request that has run out of segments. -/
private theorem sound_end (n : Nat) (rs : List (Route H)) (hn : ∀ r ∈ rs, r.segs.length ≤ n)
    (hc : CleanTable rs) (vs : List Str) (req : Req) (hreq : req.path = requestPath [])
    (hlit : ∀ r ∈ rs, Seg.lit req.method ∉ r.segs) (hmne : req.method ≠ []) (h : H) (req' : Req)
    (hs : (Node.mux (insAll rs) vs).serve req = .handled h req') :
    ∃ r, Current rs r ∧ r.handler = h ∧ r.method = req.method ∧
      ∃ k, Matches r.segs (List.replicate k req.method) ∧
        ∀ s ∈ r.segs, ∃ name, s = .par name := by
  induction n generalizing rs vs req with
  | zero =>
    rw [serve_insAll rs hc, thisOf_nil req hreq] at hs
    have ht : ∀ k, tails k rs = [] := by
      intro k; rw [tails_eq_nil]; intro r hr s ss e
      have := hn r hr; simp [e] at this
    simp only [slot, ht, if_true] at hs
    have h0 : lastLeaf [] rs = none := lastLeaf_none (fun r hr => (hc.method r hr).1)
    rw [h0] at hs
    cases e : lastLeaf req.method rs with
    | none => rw [e] at hs; simp at hs
    | some x =>
      rw [e] at hs
      simp [Node.serve] at hs
      obtain ⟨r, hr, h1, h2, h3⟩ : ∃ r, Current rs r ∧ r.segs = [] ∧ r.method = req.method ∧ r.handler = x := by
        clear hs ht h0 hc hlit hn
        induction rs with
        | nil => simp [lastLeaf] at e
        | cons y ys ih =>
          simp only [lastLeaf] at e
          split at e
          · next z hz =>
            obtain ⟨r, ⟨a, b, hab, hb⟩, h2⟩ := ih (by rw [hz]; exact e)
            exact ⟨r, ⟨y :: a, b, by simp [hab], hb⟩, h2⟩
          · next hz =>
            split at e
            · next hy =>
              refine ⟨y, ⟨[], ys, rfl, ?_⟩, hy.1, hy.2, by simpa using e⟩
              intro r' hr' hsh hme
              have : r'.segs = [] := by rw [hy.1] at hsh; simpa [shape] using hsh
              clear ih
              rw [hy.2] at hme
              induction ys with
              | nil => cases hr'
              | cons w ws ih =>
                simp only [lastLeaf] at hz
                split at hz
                · cases hz
                · next hw =>
                  rcases List.mem_cons.mp hr' with rfl | h9
                  · simp [this, hme] at hz
                  · exact ih hw h9
            · cases e
      exact ⟨r, hr, h3.trans hs.1, h2, 0, by rw [h1]; exact .nil, by simp [h1]⟩
  | succ n ih =>
    rw [serve_insAll rs hc, thisOf_nil req hreq] at hs
    have htm : tails req.method rs = [] := by
      rw [tails_eq_nil]; intro r hr s ss e hk
      cases s with
      | lit l => simp [segKey] at hk; subst hk; exact hlit r hr (by simp [e])
      | par l => exact hmne hk.symm
    have hslot : slot req.method rs = (lastLeaf req.method rs).map .leaf := by
      rw [slot, if_pos htm]
    rw [hslot] at hs
    cases e : lastLeaf req.method rs with
    | some x =>
      rw [e] at hs
      simp [Node.serve] at hs
      obtain ⟨r, hr, h1, h2, h3⟩ : ∃ r, Current rs r ∧ r.segs = [] ∧ r.method = req.method ∧ r.handler = x := by
        clear hs htm hslot hc hlit hn ih
        induction rs with
        | nil => simp [lastLeaf] at e
        | cons y ys ih =>
          simp only [lastLeaf] at e
          split at e
          · next z hz =>
            obtain ⟨r, ⟨a, b, hab, hb⟩, h2⟩ := ih (by rw [hz]; exact e)
            exact ⟨r, ⟨y :: a, b, by simp [hab], hb⟩, h2⟩
          · next hz =>
            split at e
            · next hy =>
              refine ⟨y, ⟨[], ys, rfl, ?_⟩, hy.1, hy.2, by simpa using e⟩
              intro r' hr' hsh hme
              have : r'.segs = [] := by rw [hy.1] at hsh; simpa [shape] using hsh
              clear ih
              rw [hy.2] at hme
              induction ys with
              | nil => cases hr'
              | cons w ws ih =>
                simp only [lastLeaf] at hz
                split at hz
                · cases hz
                · next hw =>
                  rcases List.mem_cons.mp hr' with rfl | h9
                  · simp [this, hme] at hz
                  · exact ih hw h9
            · cases e
      exact ⟨r, hr, h3.trans hs.1, h2, 0, by rw [h1]; exact .nil, by simp [h1]⟩
    | none =>
      rw [e] at hs
      simp only [Option.map_none] at hs
      unfold slot at hs
      have h0 : lastLeaf [] rs = none := lastLeaf_none (fun r hr => (hc.method r hr).1)
      rw [h0] at hs
      by_cases hte : tails [] rs = []
      · simp [hte] at hs
      · simp only [hte, if_false, if_true] at hs
        rw [down_nil req hreq] at hs
        have := ih (tails [] rs) ?_ (hc.tails _) (names rs)
          (bindValues (Node.mux (insAll (tails [] rs)) (names rs)) req.method
            { req with rawPath := req.path, path := requestPath [] }) rfl ?_ hmne hs
        · obtain ⟨r, h1, h2, h3, k, h4, h5⟩ := this
          obtain ⟨s, hk, h6⟩ := current_lift hc h1
          have hmem : { r with segs := s :: r.segs } ∈ rs := by
            obtain ⟨a, b, hab, _⟩ := h6; simp [hab]
          cases s with
          | lit l => exact absurd hk (lit_ne hc hmem rfl)
          | par nm =>
            refine ⟨_, h6, h2, h3, k + 1, ?_, ?_⟩
            · exact .cons (.par _ _) h4
            · intro s hs
              rcases List.mem_cons.mp hs with rfl | h9
              · exact ⟨_, rfl⟩
              · exact h5 s h9
        · intro r hr
          obtain ⟨s, _, h1⟩ := mem_tails.mp hr
          have := hn _ h1
          simpa using this
        · intro r hr hin
          obtain ⟨s, _, h1⟩ := mem_tails.mp hr
          exact hlit _ h1 (List.mem_cons_of_mem _ hin)

private theorem sound (rs : List (Route H)) (hc : CleanTable rs) (segs : List Str)
    (hseg : ∀ s ∈ segs, CleanSeg s ∧ ∀ r' ∈ rs, s ≠ r'.method)
    (vs : List Str) (req : Req) (hreq : req.path = requestPath segs)
    (hlit : ∀ r ∈ rs, Seg.lit req.method ∉ r.segs) (hmne : req.method ≠ []) (h : H) (req' : Req)
    (hs : (Node.mux (insAll rs) vs).serve req = .handled h req') :
    ∃ r, Current rs r ∧ r.handler = h ∧ r.method = req.method ∧ Preferred rs r.segs segs ∧
      ∃ k, Matches r.segs (segs ++ List.replicate k req.method) ∧
        ∀ s ∈ r.segs.drop segs.length, ∃ name, s = .par name := by
  induction segs generalizing rs vs req with
  | nil =>
    obtain ⟨n, hn⟩ : ∃ n, ∀ r ∈ rs, r.segs.length ≤ n := by
      clear hs hlit hc hseg
      induction rs with
      | nil => exact ⟨0, by simp⟩
      | cons x xs ih =>
        obtain ⟨n, hn⟩ := ih
        refine ⟨max n x.segs.length, ?_⟩
        intro r hr
        rcases List.mem_cons.mp hr with rfl | h9
        · omega
        · have := hn r h9; omega
    obtain ⟨r, h1, h2, h3, k, h4, h5⟩ := sound_end n rs hn hc vs req hreq hlit hmne h req' hs
    exact ⟨r, h1, h2, h3, by intro i name v _ h; simp at h, k, by simpa using h4, by simpa using h5⟩
  | cons s ss ih =>
    have hs1 := hseg s (by simp)
    rw [serve_insAll rs hc, thisOf_cons req s ss hs1.1 hreq, down_cons req s ss hs1.1 hreq] at hs
    have key : ∀ (kk : Str) (vs2 : List Str) (req2 : Req), req2.path = requestPath ss →
        req2.method = req.method →
        (Node.mux (insAll (tails kk rs)) vs2).serve req2 = .handled h req' →
        ∃ (r : Route H) (p : Seg), segKey p = kk ∧ Current rs { r with segs := p :: r.segs } ∧ r.handler = h ∧
          r.method = req.method ∧ Preferred (tails kk rs) r.segs ss ∧
          ∃ k, Matches r.segs (ss ++ List.replicate k req.method) ∧
            ∀ s ∈ r.segs.drop ss.length, ∃ name, s = .par name := by
      intro kk vs2 req2 hp2 hm2 hs2
      have := ih (tails kk rs) (hc.tails _) ?_ vs2 req2 hp2 ?_ (by rw [hm2]; exact hmne) hs2
      · obtain ⟨r, h1, h2, h3, h4, k, h5, h6⟩ := this
        obtain ⟨p, hk, h7⟩ := current_lift hc h1
        rw [hm2] at h3 h5
        exact ⟨r, p, hk, h7, h2, h3, h4, k, h5, h6⟩
      · intro x hx
        refine ⟨(hseg x (by simp [hx])).1, fun r' hr' => ?_⟩
        obtain ⟨t, _, h5⟩ := mem_tails.mp hr'
        exact (hseg x (by simp [hx])).2 { r' with segs := t :: r'.segs } h5
      · intro r hr hin
        obtain ⟨t, _, h1⟩ := mem_tails.mp hr
        rw [hm2] at hin
        exact hlit _ h1 (List.mem_cons_of_mem _ hin)
    -- no literal beats the first segment, and none the others
    have pref : ∀ (p : Seg) (r : Route H), Preferred (tails (segKey p) rs) r.segs ss →
        (∀ name, p = .par name → tails s rs = []) →
        Preferred rs (p :: r.segs) (s :: ss) := by
      intro p r hp h0 i name v h1 h2 r' hr' hsh hl
      cases i with
      | zero =>
        simp at h1 h2
        subst h1 h2
        have := h0 name rfl
        rw [tails_eq_nil] at this
        cases hr : r'.segs with
        | nil => simp [hr] at hl
        | cons a b => simp [hr] at hl; subst hl; exact this r' hr' _ _ hr rfl
      | succ i =>
        cases hr : r'.segs with
        | nil => simp [hr] at hl
        | cons a b =>
          rw [hr] at hl hsh
          simp only [List.take_succ_cons, shape_cons, List.cons.injEq] at hsh
          have hk : segKey a = segKey p := by
            have := hsh.1
            cases a <;> cases p <;> simp_all [segKey, sh1]
          refine hp i name v (by simpa using h1) (by simpa using h2) { r' with segs := b } ?_ hsh.2
            (by simpa using hl)
          refine mem_tails.mpr ⟨a, hk, ?_⟩
          have : { r' with segs := a :: b } = r' := by cases r'; simp_all
          simpa [this] using hr'
    have hls : lastLeaf s rs = none := lastLeaf_none (fun r' hr' => (hs1.2 r' hr').symm)
    by_cases hte : tails s rs = []
    · have hslot : slot s rs = none := by rw [slot, if_pos hte, hls]; rfl
      rw [hslot] at hs
      simp only at hs
      unfold slot at hs
      have h0 : lastLeaf [] rs = none := lastLeaf_none (fun r hr => (hc.method r hr).1)
      rw [h0] at hs
      by_cases hte2 : tails [] rs = []
      · simp [hte2] at hs
      · simp only [hte2, if_false, if_true] at hs
        obtain ⟨r, p, hk, h1, h2, h3, h4, k, h5, h6⟩ := key [] _ _ (by rfl) (by rfl) hs
        have hmem : { r with segs := p :: r.segs } ∈ rs := by
          obtain ⟨a, b, hab, _⟩ := h1; simp [hab]
        cases p with
        | lit l => exact absurd hk (lit_ne hc hmem rfl)
        | par nm =>
          refine ⟨_, h1, h2, h3, ?_, k, ?_, ?_⟩
          · exact pref (.par nm) r h4 (fun _ _ => hte)
          · exact .cons (.par _ _) h5
          · simpa using h6
    · have hslot : slot s rs = some (.mux (insAll (tails s rs)) []) := by
        rw [slot, if_neg hte, if_neg hs1.1.1]
      rw [hslot] at hs
      simp only at hs
      obtain ⟨r, p, hk, h1, h2, h3, h4, k, h5, h6⟩ := key s _ _ (by rfl) (by rfl) hs
      cases p with
      | par nm => exact absurd hk.symm hs1.1.1
      | lit l =>
        simp only [segKey] at hk
        subst hk
        refine ⟨_, h1, h2, h3, ?_, k, ?_, ?_⟩
        · exact pref (.lit l) r h4 (by intro _ h; cases h)
        · exact .cons (.lit _) h5
        · simpa using h6

/-- C29, second half: a handler is called only for a route that was registered for the
request's method, is the latest of its shape, is not beaten by a literal, and matches the
request segment by segment -- except that a route may go on with parameters where the
request has ended, in which case those parameters are bound to the method. -/
theorem dispatch_sound_partial (rs : List (Route H)) (hc : CleanTable rs) (m : Str)
    (hm : m ≠ []) (hlit : ∀ r ∈ rs, Seg.lit m ∉ r.segs) (segs : List Str)
    (hseg : ∀ s ∈ segs, CleanSeg s ∧ ∀ r' ∈ rs, s ≠ r'.method) (h : H) (req' : Req)
    (hs : (routerOf rs).serve (requestFor m segs) = .handled h req') :
    ∃ r, Current rs r ∧ r.handler = h ∧ r.method = m ∧ Preferred rs r.segs segs ∧
      ∃ k, Matches r.segs (segs ++ List.replicate k m) ∧
        ∀ s ∈ r.segs.drop segs.length, ∃ name, s = .par name := by
  unfold routerOf at hs
  rw [router_eq rs hc] at hs
  exact sound rs hc segs hseg [] _ rfl hlit hm h req' hs

private theorem matches_length {p : List Seg} {s : List Str} (h : Matches p s) :
    p.length = s.length := by
  induction h <;> simp [*]

/-- C29 in full, for tables in which no parameter follows where the request ends: a handler
is called iff it is that of a current route for the method that matches the request and is
not beaten by a literal. -/
theorem dispatch_iff_partial (rs : List (Route H)) (hc : CleanTable rs) (m : Str)
    (hm : m ≠ []) (hlit : ∀ r ∈ rs, Seg.lit m ∉ r.segs) (segs : List Str)
    (hseg : ∀ s ∈ segs, CleanSeg s ∧ ∀ r' ∈ rs, s ≠ r'.method)
    (hend : ∀ r ∈ rs, ∀ name, r.segs[segs.length]? ≠ some (.par name)) (h : H) :
    (∃ req', (routerOf rs).serve (requestFor m segs) = .handled h req') ↔
      ∃ r, Current rs r ∧ r.handler = h ∧ r.method = m ∧ Matches r.segs segs ∧
        Preferred rs r.segs segs := by
  constructor
  · rintro ⟨req', hs⟩
    obtain ⟨r, h1, h2, h3, h4, k, h5, h6⟩ :=
      dispatch_sound_partial rs hc m hm hlit segs hseg h req' hs
    refine ⟨r, h1, h2, h3, ?_, h4⟩
    have hl := matches_length h5
    simp at hl
    have hk : k = 0 := by
      apply Nat.eq_zero_of_not_pos
      intro hk
      have hlt : segs.length < r.segs.length := by omega
      obtain ⟨name, hn⟩ := h6 (r.segs[segs.length]'hlt) (by
        rw [List.mem_drop_iff_getElem]
        exact ⟨0, by omega, by simp⟩)
      refine hend r ?_ name (by rw [← hn]; exact List.getElem?_eq_getElem hlt)
      obtain ⟨a, b, hab, _⟩ := h1; simp [hab]
    subst hk
    simpa using h5
  · rintro ⟨r, h1, h2, h3, h4, h5⟩
    subst h3
    obtain ⟨req', h6, _⟩ := dispatch_partial rs hc r segs h1 h4 h5 hseg
    exact ⟨req', by rw [h6, h2]⟩

/-! ## Examples and counterexamples -/

/-- Short way to write patterns in examples. -/
private def S (s : String) : Str := s.toList

/-- `GET /`, `GET /users`, `GET /users/{id}`, `PUT /users/{id}`, `GET /users/me`,
`GET /users/{user}/posts/{post}`. -/
private def shop : List (Route Nat) :=
  [⟨S "GET", [], 0⟩, ⟨S "GET", [.lit (S "users")], 1⟩,
   ⟨S "GET", [.lit (S "users"), .par (S "id")], 2⟩,
   ⟨S "PUT", [.lit (S "users"), .par (S "id")], 3⟩,
   ⟨S "GET", [.lit (S "users"), .lit (S "me")], 4⟩,
   ⟨S "GET", [.lit (S "users"), .par (S "user"), .lit (S "posts"), .par (S "post")], 5⟩]

/-- Decides whether a table is clean (for the examples). -/
def cleanB {H : Type} (rs : List (Route H)) : Bool :=
  rs.all (fun r => r.segs.all (fun s => match s with
    | .lit s => s != [] && !s.contains '/' && !(2 < s.length && s.head? == some '{' && s.getLast? == some '}')
    | .par n => n != [] && !n.contains '/')) &&
  rs.all (fun r => r.method != [] && !r.method.contains ' ') &&
  rs.all (fun r => rs.all (fun r' => !r.segs.contains (.lit r'.method)))

theorem clean_of {H : Type} (rs : List (Route H)) (h : cleanB rs = true) : CleanTable rs := by
  simp only [cleanB, Bool.and_eq_true, List.all_eq_true] at h
  refine ⟨?_, ?_, ?_⟩
  · intro r hr s hs
    have := h.1.1 r hr s hs
    cases s with
    | lit l =>
      simp at this
      refine ⟨⟨this.1.1, this.1.2⟩, ?_⟩
      rintro ⟨h1, h2, h3⟩
      rcases this.2 with (h | h) | h
      · omega
      · exact h h2
      · exact h h3
    | par l => simpa [CleanPat, CleanSeg] using this
  · intro r hr
    have := h.1.2 r hr
    simpa using this
  · intro r hr r' hr' l hl e
    have := h.2 r hr r' hr'
    subst e
    simp at this
    exact this hl

/-- The outcome for a request, with the values of some parameters (for the examples). -/
private def outcome (rs : List (Route Nat)) (m : String) (segs : List String) (ns : List String) :
    Option (Nat × List Str) :=
  match (Node.mux (insAll rs) []).serve (requestFor (S m) (segs.map S)) with
  | .handled h r => some (h, ns.map (fun n => r.pathValue (S n)))
  | .notFound _ => none

private theorem outcome_some {rs : List (Route Nat)} (hc : cleanB rs = true) {m : String}
    {segs ns : List String} {h : Nat} {vs : List Str} (e : outcome rs m segs ns = some (h, vs)) :
    ∃ r, (routerOf rs).serve (requestFor (S m) (segs.map S)) = .handled h r ∧
      ns.map (fun n => r.pathValue (S n)) = vs := by
  unfold routerOf
  rw [router_eq rs (clean_of rs hc)]
  unfold outcome at e
  split at e
  · next h' r h1 => simp at e; exact ⟨r, by rw [h1, e.1], e.2⟩
  · cases e

private theorem outcome_none {rs : List (Route Nat)} (hc : cleanB rs = true) {m : String}
    {segs ns : List String} (e : outcome rs m segs ns = none) :
    ∃ r, (routerOf rs).serve (requestFor (S m) (segs.map S)) = .notFound r := by
  unfold routerOf
  rw [router_eq rs (clean_of rs hc)]
  unfold outcome at e
  split at e
  · cases e
  · next r h1 => exact ⟨r, h1⟩

/-- `shop` is clean, and routes with literals, parameters and two parameters on one path are
found, whichever was registered first. -/
example : CleanTable shop := clean_of _ (by decide)

example : ∃ r, (routerOf shop).serve (requestFor (S "GET") [S "users", S "me"]) = .handled 4 r ∧
    ([] : List Str) = [] :=
  outcome_some (rs := shop) (m := "GET") (segs := ["users", "me"]) (ns := []) (by decide) (by decide)

example : ∃ r, (routerOf shop).serve
    (requestFor (S "GET") [S "users", S "bob", S "posts", S "7"]) = .handled 5 r ∧
    [r.pathValue (S "user"), r.pathValue (S "post")] = [S "bob", S "7"] :=
  outcome_some (rs := shop) (m := "GET") (segs := ["users", "bob", "posts", "7"])
    (ns := ["user", "post"]) (by decide) (by decide)

/-- The hypotheses of `dispatch_partial` for `PUT /users/bob`. -/
example : Current shop ⟨S "PUT", [.lit (S "users"), .par (S "id")], 3⟩ ∧
    Matches [.lit (S "users"), .par (S "id")] [S "users", S "bob"] ∧
    Preferred shop [.lit (S "users"), .par (S "id")] [S "users", S "bob"] ∧
    (∀ s ∈ [S "users", S "bob"], CleanSeg s ∧ ∀ r ∈ shop, s ≠ r.method) := by
  refine ⟨⟨shop.take 3, shop.drop 4, rfl, by decide⟩, .cons (.lit _) (.cons (.par _ _) .nil), ?_, ?_⟩
  · intro i name v h1 h2 r hr _ h3
    match i with
    | 0 => simp at h1
    | 1 =>
      simp at h2; subst h2
      revert r; decide
    | n + 2 => simp at h1
  · intro s hs
    have : s = S "users" ∨ s = S "bob" := by simpa using hs
    rcases this with rfl | rfl
    · exact ⟨⟨by decide, by decide⟩, by decide⟩
    · exact ⟨⟨by decide, by decide⟩, by decide⟩

/-- C29 in full: over clean tables and clean requests, some handler is called exactly when
some registered route for the method matches the request. -/
def DispatchClaim : Prop :=
  ∀ (rs : List (Route Nat)), CleanTable rs → ∀ (m : Str) (segs : List Str), m ≠ [] →
    (∀ s ∈ segs, CleanSeg s) →
    ((∃ h req', (routerOf rs).serve (requestFor m segs) = .handled h req') ↔
      ∃ r ∈ rs, r.method = m ∧ Matches r.segs segs)

/-- C29 fails. With `GET /a/b` and `GET /{x}/c` registered, the request `GET /a/c` matches the
second pattern and is not found: having taken the literal `a`, the router does not come
back. -/
theorem dispatch_fails : ¬ DispatchClaim := by
  intro h
  have h1 := (h [⟨S "GET", [.lit (S "a"), .lit (S "b")], 1⟩, ⟨S "GET", [.par (S "x"), .lit (S "c")], 2⟩]
    (clean_of _ (by decide)) (S "GET") [S "a", S "c"] (by decide)
    (by intro s hs
        have : s = S "a" ∨ s = S "c" := by simpa using hs
        rcases this with rfl | rfl <;> exact ⟨by decide, by decide⟩)).mpr
    ⟨⟨S "GET", [.par (S "x"), .lit (S "c")], 2⟩, by simp, rfl, .cons (.par _ _) (.cons (.lit _) .nil)⟩
  obtain ⟨k, req', h2⟩ := h1
  obtain ⟨r, h3⟩ := outcome_none (rs := [⟨S "GET", [.lit (S "a"), .lit (S "b")], 1⟩,
    ⟨S "GET", [.par (S "x"), .lit (S "c")], 2⟩]) (by decide) (m := "GET") (segs := ["a", "c"])
    (ns := []) (by decide)
  simp only [List.map_cons, List.map_nil] at h3
  rw [h3] at h2
  cases h2

/-- A literal registered for another method hides a parameter route: with `GET /{id}` and
`POST /new`, the request `GET /new` is not found. -/
theorem dispatch_fails_other_method :
    ∃ r, (routerOf [(⟨S "GET", [.par (S "id")], 1⟩ : Route Nat), ⟨S "POST", [.lit (S "new")], 2⟩]).serve
      (requestFor (S "GET") [S "new"]) = .notFound r :=
  outcome_none (m := "GET") (segs := ["new"]) (ns := []) (by decide) (by decide)

/-- A request that matches no pattern is handled all the same when a pattern goes on with a
parameter where the request ends: with only `GET /users/{id}`, the request `GET /users` calls
its handler with `id` set to `GET`. -/
theorem dispatch_fails_short :
    ∃ r, (routerOf [(⟨S "GET", [.lit (S "users"), .par (S "id")], 1⟩ : Route Nat)]).serve
      (requestFor (S "GET") [S "users"]) = .handled 1 r ∧ [r.pathValue (S "id")] = [S "GET"] :=
  outcome_some (m := "GET") (segs := ["users"]) (ns := ["id"]) (by decide) (by decide)

/-- Methods and segments share one namespace: with `GET /users` and `GET /users/{name}`, the
request `GET /users/GET` calls the handler of `/users`. -/
theorem dispatch_fails_method_name :
    ∃ r, (routerOf [(⟨S "GET", [.lit (S "users")], 1⟩ : Route Nat),
        ⟨S "GET", [.lit (S "users"), .par (S "name")], 2⟩]).serve
      (requestFor (S "GET") [S "users", S "GET"]) = .handled 1 r ∧ ([] : List Str) = [] :=
  outcome_some (m := "GET") (segs := ["users", "GET"]) (ns := []) (by decide) (by decide)

/-! ## C63: what the not-found handler sees -/

/-- C63 in full: when no route is found, the not-found handler is given the request with the
path it came with. -/
def NotFoundPathClaim : Prop :=
  ∀ (rs : List (Route Nat)), CleanTable rs → ∀ (m : Str) (segs : List Str), m ≠ [] →
    (∀ s ∈ segs, CleanSeg s) →
    ∀ req', (routerOf rs).serve (requestFor m segs) = .notFound req' → req'.path = requestPath segs

/-- C63 fails: with only `GET /users` registered, the request `GET /nowhere` reaches the
not-found handler with an empty path. -/
theorem not_found_path_fails : ¬ NotFoundPathClaim := by
  intro h
  have hc : cleanB [⟨S "GET", [.lit (S "users")], 1⟩] = true := by decide
  have := h [⟨S "GET", [.lit (S "users")], 1⟩] (clean_of _ hc) (S "GET") [S "nowhere"] (by decide)
    (by intro s hs
        have : s = S "nowhere" := by simpa using hs
        subst this; exact ⟨by decide, by decide⟩)
    { method := S "GET", path := [] } (by
      unfold routerOf
      rw [router_eq _ (clean_of _ hc)]
      rfl)
  exact absurd this (by decide)

/-- What holds of C63: the method and the parameters bound so far are kept, and the path is
what it came with if the request is refused one level below the root: a registered literal
followed by a segment that is neither a literal nor a parameter there. -/
theorem not_found_path_partial (rs : List (Route H)) (hc : CleanTable rs) (m a b : Str)
    (ss : List Str) (ha : CleanSeg a) (hb : CleanSeg b)
    (hex : ∃ r ∈ rs, ∃ q, r.segs = .lit a :: q)
    (hnone : ∀ r ∈ rs, ∀ q, r.segs ≠ .lit a :: .lit b :: q ∧
      ∀ n, r.segs ≠ .lit a :: .par n :: q)
    (hmeth : ∀ r ∈ rs, a ≠ r.method ∧ b ≠ r.method) :
    ∃ req', (routerOf rs).serve (requestFor m (a :: b :: ss)) = .notFound req' ∧
      req'.method = m ∧ req'.path = requestPath (a :: b :: ss) := by
  unfold routerOf
  rw [router_eq rs hc, serve_insAll rs hc, thisOf_cons _ a _ ha rfl, down_cons _ a _ ha rfl]
  have hne : tails a rs ≠ [] := by
    intro h
    obtain ⟨r, hr, q, hq⟩ := hex
    exact tails_eq_nil.mp h r hr _ _ hq rfl
  rw [slot, if_neg hne, if_neg ha.1]
  simp only
  rw [serve_insAll _ (hc.tails a), thisOf_cons _ b ss hb rfl, down_cons _ b ss hb rfl]
  have mem : ∀ x ∈ tails a rs, ({ x with segs := .lit a :: x.segs } : Route H) ∈ rs := by
    intro x hx
    obtain ⟨s, hs, h⟩ := mem_tails.mp hx
    cases s with
    | lit l => simp only [segKey] at hs; subst hs; exact h
    | par l => exact absurd hs.symm ha.1
  have e1 : tails b (tails a rs) = [] := by
    rw [tails_eq_nil]
    intro x hx s q hs hk
    cases s with
    | lit l =>
      simp only [segKey] at hk; subst hk
      exact (hnone _ (mem x hx) q).1 (by simp [hs])
    | par l => exact hb.1 hk.symm
  have e2 : tails [] (tails a rs) = [] := by
    rw [tails_eq_nil]
    intro x hx s q hs hk
    cases s with
    | lit l => exact absurd hk (lit_ne (hc.tails a) hx hs)
    | par l => exact (hnone _ (mem x hx) q).2 l (by simp [hs])
  have e3 : lastLeaf b (tails a rs) = none :=
    lastLeaf_none (fun x hx e => (hmeth _ (mem x hx)).2 e.symm)
  have e4 : lastLeaf [] (tails a rs) = none :=
    lastLeaf_none (fun x hx => ((hc.tails a).method x hx).1)
  simp only [slot, e1, e2, e3, e4, if_true, Option.map_none]
  exact ⟨_, rfl, rfl, rfl⟩

/-- The hypotheses of `not_found_path_partial` on a concrete table. -/
example : ∃ req', (routerOf [(⟨S "GET", [.lit (S "users"), .lit (S "me")], 1⟩ : Route Nat)]).serve
    (requestFor (S "GET") [S "users", S "you"]) = .notFound req' ∧ req'.method = S "GET" ∧
    req'.path = requestPath [S "users", S "you"] :=
  not_found_path_partial _ (clean_of _ (by decide)) _ _ _ _ ⟨by decide, by decide⟩
    ⟨by decide, by decide⟩ ⟨_, List.mem_cons_self, _, rfl⟩
    (by intro r hr q; simp at hr; subst hr; simp [S]) (by intro r hr; simp at hr; subst hr; decide)

end Verif.Rest
