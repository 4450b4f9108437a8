import Verif.Rest.ServeLemmas2
import Verif.Rest.ScanLemmas
import Mathlib.Data.List.Nodup
/-!
# C121: the arguments of a linked REST function arrive at the implementation
-/
namespace Verif.Rest.Serve

open Verif.Rest Verif.Rest.Spec

variable {V H : Type}

private theorem textFor_mem {asg : List (Str × Str)} (hd : (asg.map Prod.fst).Nodup) {n t : Str}
    (h : (n, t) ∈ asg) : textFor asg n = some t := by
  induction asg with
  | nil => simp at h
  | cons a asg ih =>
    rw [List.map_cons, List.nodup_cons] at hd
    unfold textFor
    by_cases e : a.1 = n
    · rw [List.find?_cons_of_pos (by simpa using e)]
      rcases List.mem_cons.mp h with h | h
      · rw [← h]; rfl
      · exact absurd (by rw [e]; exact List.mem_map_of_mem h) hd.1
    · rw [List.find?_cons_of_neg (by simpa using e)]
      rcases List.mem_cons.mp h with h | h
      · exact absurd (by rw [← h]) e
      · exact ih hd.2 h

private theorem mem_asgOf {args : Cells V} {ps : List (Prm V)} {p : Prm V} (hp : p ∈ ps)
    (hi : p.inPath = true) : (p.name, textOf args p) ∈ asgOf args ps :=
  List.mem_map.mpr ⟨p, List.mem_filter.mpr ⟨hp, hi⟩, rfl⟩

private theorem asgOf_fst (args : Cells V) (ps : List (Prm V)) :
    (asgOf args ps).map Prod.fst = (ps.filter (·.inPath)).map Prm.name := by
  simp [asgOf, Function.comp_def]

private theorem mapOf_new (args : Cells V) : ∀ (ps : List (Prm V)) (m : List (Str × Arg V)),
    (m.map Prod.fst ++ (ps.filter (·.inBody)).map Prm.name).Nodup →
    mapOf args ps m = m ++ (ps.filter (·.inBody)).map (fun p => (p.name, args p.index))
  | ps, m, h => by
    unfold mapOf
    generalize ps.filter (·.inBody) = l at h ⊢
    induction l generalizing m with
    | nil => simp
    | cons p l ih =>
      have hnot : p.name ∉ m.map Prod.fst := by
        intro hm
        obtain ⟨_, _, h3⟩ := List.nodup_append.mp h
        exact h3 _ hm _ (by simp) rfl
      have hany : m.any (fun e => decide (e.1 = p.name)) = false := by
        rw [List.any_eq_false]
        intro e he
        simp only [decide_eq_true_eq]
        exact fun e' => hnot (by rw [← e']; exact List.mem_map_of_mem he)
      rw [List.foldl_cons, mapSet]
      rw [hany, if_neg (by decide), ih]
      · simp
      · simpa using h

private theorem zip_map_same (l : List (Prm V)) (f : Prm V → Arg V) :
    (l.map Prm.name).zip (l.map f) = l.map (fun p => (p.name, f p)) := by
  induction l with
  | nil => rfl
  | cons p l ih => simp [ih]

private theorem bodyShapes_eq (ps : List (Prm V)) :
    bodyShapes ps = (ps.filter (·.inBody)).map Prm.shape := by
  unfold bodyShapes
  congr 1
  apply List.filter_congr
  intro p _
  rw [Bool.eq_iff_iff, decide_eq_true_eq, inBody_iff]

private theorem decodable_sub {c : Str} (h : c ∈ decodable) : c ∈ contentTypes := by
  simp only [decodable, List.mem_cons, List.not_mem_nil, or_false] at h
  rcases h with rfl | rfl | rfl <;> decide

private theorem mediaType_known {c : Str} (h : c ∈ decodable) : mediaType c = c ∧ c ≠ [] := by
  simp only [decodable, List.mem_cons, List.not_mem_nil, or_false] at h
  rcases h with rfl | rfl | rfl <;> decide +kernel

private theorem encodeOne_bytes {std : Std} {cstd : CStd V} {n : Str} {k : Kind V} {v : V}
    (h : Printed k v ∨ Textual k v ∨ Jsonic std cstd k v) (hn : ∀ c ∈ n, IsByte c) :
    ∀ p ∈ encodeOne cstd.unquote n k v, BytePair p := by
  intro p hp
  unfold encodeOne at hp
  split at hp
  · simp at hp
  · rcases h with h | h | h
    · rw [h.noText.2, h.noJSON.2] at hp
      simp only [List.mem_singleton] at hp
      rw [hp]; exact ⟨hn, h.bytes⟩
    · obtain ⟨f, g, hf, _, hb, _⟩ := h.both
      rw [hf] at hp
      simp only [List.mem_singleton] at hp
      rw [hp]; exact ⟨hn, hb⟩
    · obtain ⟨f, g, hf, _, h'⟩ := h.both
      rw [h.noText.2, hf] at hp
      simp only [List.mem_singleton] at hp
      rw [hp]
      rcases h' with ⟨h1, _, h3, _⟩ | ⟨h1, t, h2, _, h4, _⟩
      · rw [if_neg h1]; exact ⟨hn, h3⟩
      · rw [if_pos h1, h2]; exact ⟨hn, h4⟩

private theorem fills_matches {op : Op V} {args : Cells V} {rsegs : List Seg} {segs : List Str}
    (h : List.Forall₂ (Fills op args) rsegs segs) : Matches rsegs segs := by
  induction h with
  | nil => exact .nil
  | @cons s t ss ts h _ ih =>
    refine .cons ?_ ih
    cases s with
    | lit l => rw [show t = l from h]; exact .lit l
    | par n => exact .par n t

private theorem fills_index {op : Op V} {args : Cells V} {rsegs : List Seg} {segs : List Str}
    (h : List.Forall₂ (Fills op args) rsegs segs) {n : Str} (hn : Seg.par n ∈ rsegs) :
    ∃ (i : Nat) (t : Str), rsegs[i]? = some (.par n) ∧ segs[i]? = some t ∧ Fills op args (.par n) t := by
  induction h with
  | nil => simp at hn
  | @cons s t ss ts h _ ih =>
    rcases List.mem_cons.mp hn with rfl | hn
    · exact ⟨0, t, rfl, rfl, h⟩
    · obtain ⟨i, t', h1, h2, h3⟩ := ih hn
      exact ⟨i + 1, t', by simpa using h1, by simpa using h2, h3⟩

/-- C121, what holds: a call that `Travels` reaches the handler of its operation, through the
router, whatever other routes there are, and the handler reads exactly the arguments the
caller passed. What is missing from the full property is in the theorems below. -/
theorem arguments_arrive_partial (std : Std) (cstd : CStd V) (codec : Str → Codec V)
    (rs : List (Route H)) (r : Route H) (op : Op V) (args : Cells V) (segs : List Str)
    (h : Travels std cstd codec rs r op args segs) :
    Arrives std cstd codec rs r.handler op args := by
  have hct := decodable_sub h.ctype
  -- the body arguments can be written
  have hbodyArgs : ∀ p ∈ op.params, p.inBody = true → args p.index ≠ .nilPtr := by
    intro p hp hb
    have hm : p ∈ op.params.filter (·.inBody) := List.mem_filter.mpr ⟨hp, hb⟩
    cases h.body with
    | none e _ => rw [e] at hm; simp at hm
    | one q e _ _ _ hn _ =>
      rw [e, List.mem_singleton] at hm; rw [hm]; exact hn
    | named _ _ _ _ hp' _ => exact hp' p hp hb
  -- the path parameters are named in the route
  have hnames : ∀ p ∈ op.params, p.inPath = true → Seg.par p.name ∈ r.segs := by
    intro p hp hi
    exact mem_parNames.mp (h.pathNames.subset
      (List.mem_map_of_mem (List.mem_filter.mpr ⟨hp, hi⟩)))
  have hwrite := write_all cstd codec op args op.params
    { path := op.path, query := op.constants, mapping := [], body := [] }
    (fun p hp hi => ⟨(h.names _ (hnames p hp hi)).2.2, by
      obtain ⟨k, v, a, b, _⟩ := h.inPath p hp hi; exact ⟨k, v, a, b⟩⟩) hbodyArgs
  -- every request segment is a printed text or a literal
  have hsegBytes : ∀ s ∈ segs, ∀ c ∈ s, IsByte c := by
    have := h.filled
    intro s hs
    have hplain : ∀ c, segPlain c = true → IsByte c := by
      intro c hc
      unfold IsByte
      simp only [segPlain, unreserved, Bool.or_eq_true, Bool.and_eq_true, decide_eq_true_eq,
        beq_iff_eq] at hc
      have le : ∀ a b : Char, a ≤ b → a.toNat ≤ b.toNat := fun a b h => h
      rcases hc with ((((((hc | hc) | hc) | hc) | hc) | hc) | hc)
      · rcases hc with ((((((hc | hc) | hc) | hc) | hc) | hc) | hc)
        · exact Nat.lt_of_le_of_lt (le _ _ hc.2) (by decide)
        · exact Nat.lt_of_le_of_lt (le _ _ hc.2) (by decide)
        · exact Nat.lt_of_le_of_lt (le _ _ hc.2) (by decide)
        all_goals (rw [hc]; decide)
      all_goals (rw [hc]; decide)
    have : ∀ (rsegs : List Seg) (ss : List Str), List.Forall₂ (Fills op args) rsegs ss →
        (∀ x ∈ rsegs, x ∈ r.segs) → ∀ s ∈ ss, ∀ c ∈ s, IsByte c := by
      intro rsegs ss hf
      induction hf with
      | nil => simp
      | @cons x t xs ts hx _ ih =>
        intro hsub s hs
        rcases List.mem_cons.mp hs with rfl | hs
        · cases x with
          | lit l =>
            rw [show s = l from hx]
            exact fun c hc => hplain c (h.literals l (hsub _ (List.mem_cons_self ..)) c hc)
          | par n =>
            obtain ⟨p, hp, hi, _, k, v, hk, hv, rfl⟩ := hx
            obtain ⟨k', v', hk', hv', hpr⟩ := h.inPath p hp hi
            rw [hk] at hk'; injection hk' with e; subst e
            rw [hv] at hv'; injection hv' with e; subst e
            exact hpr.bytes
        · exact ih (fun y hy => hsub y (List.mem_cons_of_mem _ hy)) s hs
    exact this r.segs segs h.filled (fun _ hx => hx) s hs
  -- the path that is written
  have hpnd : ((asgOf args op.params).map Prod.fst).Nodup := by
    rw [asgOf_fst]; exact h.pathNames.nodup_iff.mpr h.once
  have hfillAll : r.segs.map (fillWith (asgOf args op.params)) = segs.map pathEscape := by
    have : ∀ (rsegs : List Seg) (ss : List Str), List.Forall₂ (Fills op args) rsegs ss →
        (∀ x ∈ rsegs, x ∈ r.segs) →
        rsegs.map (fillWith (asgOf args op.params)) = ss.map pathEscape := by
      intro rsegs ss hf
      induction hf with
      | nil => simp
      | @cons x t xs ts hx _ ih =>
        intro hsub
        rw [List.map_cons, List.map_cons, ih (fun y hy => hsub y (List.mem_cons_of_mem _ hy))]
        congr 1
        cases x with
        | lit l =>
          rw [show t = l from hx]
          exact (pathEscape_plain l (h.literals l (hsub _ (List.mem_cons_self ..)))).symm
        | par n =>
          obtain ⟨p, hp, hi, hn, k, v, hk, hv, rfl⟩ := hx
          have := textFor_mem hpnd (mem_asgOf (args := args) hp hi)
          rw [hn] at this
          have ht : textOf args p = k.print v := by simp [textOf, hk, hv]
          simp [fillWith, this, ht]
    exact this r.segs segs h.filled (fun _ hx => hx)
  have hpath : (asgOf args op.params).foldl replStep op.path = requestPath (segs.map pathEscape) := by
    by_cases hnil : r.segs = []
    · have hs : segs = [] := by
        have := h.filled; rw [hnil] at this; cases this; rfl
      have ha : asgOf args op.params = [] := by
        have := h.pathNames
        rw [hnil] at this
        have := List.Perm.eq_nil this
        unfold asgOf
        rw [List.map_eq_nil_iff.mp this]; rfl
      rw [ha, h.path, hnil, hs]; rfl
    · have hs : segs ≠ [] := by
        intro e
        have := h.filled.length_eq
        rw [e, List.length_nil] at this
        exact hnil (List.length_eq_zero_iff.mp this)
      have h0 : r.segs.map (fillWith []) = r.segs.map Seg.text := by
        apply List.map_congr_left
        intro s _
        cases s <;> rfl
      have hall := replace_all r.segs
        ⟨fun l hl hc => by
            have := h.literals l hl '{' hc
            exact absurd this (by decide),
          fun m hm => ⟨(h.names m hm).1, (h.names m hm).2.1⟩⟩
        h.once (asgOf args op.params) [] (by simp)
        (by
          intro a ha
          obtain ⟨p, hp, rfl⟩ := List.mem_map.mp ha
          rw [List.mem_filter] at hp
          obtain ⟨k, v, hk, hv, hpr⟩ := h.inPath p hp.1 hp.2
          have : textOf args p = k.print v := by simp [textOf, hk, hv]
          dsimp only
          rw [this]; exact hpr.bytes)
        (by
          intro a ha
          obtain ⟨p, hp, rfl⟩ := List.mem_map.mp ha
          rw [List.mem_filter] at hp
          exact mem_parNames.mpr (hnames p hp.1 hp.2))
        (fun _ _ => rfl) hpnd
      rw [h.path]
      unfold requestPath
      rw [if_neg (by simpa using hnil), if_neg (by simpa using hs), ← h0, hall, List.nil_append, hfillAll]
  -- the query that is written
  have hq : ∀ p ∈ op.constants ++ queryOf cstd args op.params, BytePair p := by
    intro x hx
    rcases List.mem_append.mp hx with hx | hx
    · exact h.bytes.1 x hx
    · unfold queryOf at hx
      rw [List.mem_flatten] at hx
      obtain ⟨l, hl, hx⟩ := hx
      obtain ⟨p, hp, rfl⟩ := List.mem_map.mp hl
      rw [List.mem_filter] at hp
      obtain ⟨k, v, hk, hv, hpr⟩ := h.inQuery p hp.1 hp.2
      unfold addsOf at hx
      rw [hk, hv] at hx
      exact encodeOne_bytes (by rcases hpr with h | h; exacts [Or.inl h, Or.inr h.2])
        (h.bytes.2 p hp.1) x hx
  -- what is sent
  generalize hw : (some ({
      path := (asgOf args op.params).foldl replStep op.path
      query := op.constants ++ queryOf cstd args op.params
      mapping := if op.clientMaps then mapOf args op.params [] else []
      body := if op.clientMaps then [] else [] ++ encOf (codec op.ctype) args op.params } : Writing V)) = ow at hwrite
  obtain ⟨q, hend, hvals⟩ := endpoint_read
    ({ path := (asgOf args op.params).foldl replStep op.path
       query := op.constants ++ queryOf cstd args op.params
       mapping := if op.clientMaps then mapOf args op.params [] else []
       body := if op.clientMaps then [] else [] ++ encOf (codec op.ctype) args op.params } : Writing V)
    segs hsegBytes hpath hq
  have hsend : send cstd codec op args = .request
      { mux := requestFor r.method segs
        query := q
        body := if op.method ∈ bodiless then []
                else if op.clientMaps then (codec op.ctype).encObj (mapOf args op.params [])
                else encOf (codec op.ctype) args op.params
        accept := "application/json".toList
        ctype := op.ctype } := by
    unfold send
    rw [if_neg (by simpa using hct), hwrite, ← hw]
    dsimp only
    rw [hend]
    dsimp only
    rw [h.method]
    cases op.clientMaps <;> simp [requestFor]
  refine ⟨_, hsend, ?_⟩
  -- the router
  obtain ⟨req', hserve, _, hvalue⟩ := dispatch_partial rs h.table r segs h.current
    (fills_matches h.filled) h.wins h.segments
  refine ⟨req', hserve, ?_⟩
  -- path values
  have hpv : ∀ p ∈ op.params, p.inPath = true → ∀ k v, p.shape = .one k → args p.index = .one v →
      req'.pathValue p.name = k.print v := by
    intro p hp hi k v hk hv
    obtain ⟨i, t, h1, h2, p', hp', hi', hn', k', v', hk', hv', ht⟩ := fills_index h.filled (hnames p hp hi)
    have hpp : p' = p := by
      have hnd : ((op.params.filter (·.inPath)).map Prm.name).Nodup := h.pathNames.nodup_iff.mpr h.once
      exact List.inj_on_of_nodup_map hnd (List.mem_filter.mpr ⟨hp', hi'⟩)
        (List.mem_filter.mpr ⟨hp, hi⟩) hn'
    subst hpp
    rw [hk] at hk'; injection hk' with e; subst e
    rw [hv] at hv'; injection hv' with e; subst e
    rw [← ht]
    exact hvalue i _ t h1 h2 (h.deeper i _ h1)
  -- the arguments
  obtain ⟨hmt, hmne⟩ := mediaType_known h.ctype
  generalize hrq : ({ mux := req', query := q
                      body := if op.method ∈ bodiless then []
                        else if op.clientMaps then (codec op.ctype).encObj (mapOf args op.params [])
                        else encOf (codec op.ctype) args op.params
                      accept := "application/json".toList, ctype := op.ctype } : Request) = rq
  have hquery : rq.query = q := by rw [← hrq]
  have hmux : rq.mux = req' := by rw [← hrq]
  have hrt : requestType op rq = op.ctype := by
    unfold requestType
    rw [← hrq]
    dsimp only
    rw [hmt, if_pos hmne]
  have hreads : ∀ p ∈ op.params, p.loc ≠ .void → p.inBody = false →
      readPlain std p rq = .ok (args p.index) := by
    intro p hp hl hb
    have hloc : p.inPath = true ∨ p.inQuery = true := by
      rcases p with ⟨n, sh, l, i⟩
      cases l with
      | void => exact absurd rfl hl
      | «at» a b => cases a <;> cases b <;> simp_all [Prm.inPath, Prm.inQuery, Prm.inBody]
    have hkv : ∃ k v, p.shape = .one k ∧ args p.index = .one v := by
      rcases hloc with hi | hi
      · obtain ⟨k, v, a, b, _⟩ := h.inPath p hp hi; exact ⟨k, v, a, b⟩
      · obtain ⟨k, v, a, b, _⟩ := h.inQuery p hp hi; exact ⟨k, v, a, b⟩
    obtain ⟨k, v, hk, hv⟩ := hkv
    refine readPlain_sent std cstd args p rq k v hk hv hloc ?_ ?_
    · intro hi
      obtain ⟨k', v', hk', hv', hpr⟩ := h.inPath p hp hi
      rw [hk] at hk'; injection hk' with e; subst e
      rw [hv] at hv'; injection hv' with e; subst e
      exact ⟨hpr, by rw [hmux]; exact hpv p hp hi k v hk hv⟩
    · intro hi
      obtain ⟨k', v', hk', hv', hpr⟩ := h.inQuery p hp hi
      rw [hk] at hk'; injection hk' with e; subst e
      rw [hv] at hv'; injection hv' with e; subst e
      refine ⟨hpr, ?_⟩
      rw [hquery, hvals]
      exact getValue_call cstd args op.constants op.params p hp hi h.queryNames
  unfold readArgs
  rw [hrt]
  cases h.body with
  | none e hr =>
    have hmap : readMapped codec op op.ctype rq = .ok [] := by unfold readMapped; rw [if_pos hr]
    rw [hmap]
    obtain ⟨st', h1, h2, _⟩ := read_all std codec (decide (op.argRules ≠ [])) op.ctype rq args op.params
      { cells := zeros op.params, body := rq.body, mapped := [] } h.index hreads
      (Or.inr ⟨by simp [hr], Or.inl e⟩)
    simp only [Step.bind]
    rw [h1]
    exact ⟨st'.cells, rfl, h2⟩
  | one p e hr hm hs hn hc =>
    have hmap : readMapped codec op op.ctype rq = .ok [] := by unfold readMapped; rw [if_pos hr]
    rw [hmap]
    obtain ⟨rest, hc⟩ := hc
    have hcm : op.clientMaps = false := by
      unfold Op.clientMaps
      rw [bodyShapes_eq, e]; simp [hr]
    have hbody : rq.body = (codec op.ctype).enc (args p.index) := by
      rw [← hrq]
      dsimp only
      rw [if_neg hm, hcm]
      simp [encOf, e]
    obtain ⟨st', h1, h2, _⟩ := read_all std codec (decide (op.argRules ≠ [])) op.ctype rq args op.params
      { cells := zeros op.params, body := rq.body, mapped := [] } h.index hreads
      (Or.inr ⟨by simp [hr], Or.inr ⟨p, rest, e, by
        dsimp only
        rw [hbody]
        unfold decodeBody
        rw [if_neg (by simpa using hct), if_neg (by simpa using h.ctype)]
        cases hsh : p.shape with
        | ptr k => exact absurd hsh (hs k)
        | one k => dsimp only; rw [← hsh, hc]
        | slice k => dsimp only; rw [← hsh, hc]⟩⟩)
    simp only [Step.bind]
    rw [h1]
    exact ⟨st'.cells, rfl, h2⟩
  | named hr hm hn hd hp hc =>
    have hcm : op.clientMaps = true := by
      unfold Op.clientMaps; simp [hr]
    have hbody : rq.body = (codec op.ctype).encObj (op.argRules.zip
        ((op.params.filter (·.inBody)).map (fun p => args p.index))) := by
      rw [← hrq]
      dsimp only
      rw [if_neg hm, hcm, if_pos rfl, mapOf_new args op.params [] (by simpa [hn] using hd),
        List.nil_append, ← hn, zip_map_same]
    have hmap : readMapped codec op op.ctype rq =
        .ok ((op.params.filter (·.inBody)).map (fun p => args p.index)) := by
      unfold readMapped
      rw [if_neg hr, if_neg (by simpa using hct), if_neg (by simpa using h.ctype), hbody,
        bodyShapes_eq, hc]
    rw [hmap]
    obtain ⟨st', h1, h2, _⟩ := read_all std codec (decide (op.argRules ≠ [])) op.ctype rq args op.params
      { cells := zeros op.params, body := rq.body
        mapped := (op.params.filter (·.inBody)).map (fun p => args p.index) } h.index hreads
      (Or.inl ⟨by simp [hr], rfl⟩)
    simp only [Step.bind]
    rw [h1]
    exact ⟨st'.cells, rfl, h2⟩

end Verif.Rest.Serve
