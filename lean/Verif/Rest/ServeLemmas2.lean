import Verif.Rest.ServeLemmas
/-!
# Lemmas: the loops over the parameters
-/
namespace Verif.Rest.Serve

open Verif.Rest Verif.Rest.Spec

variable {V H : Type}

theorem inBody_iff (p : Prm V) : p.inBody = true ↔ p.loc = Loc.body := by
  unfold Prm.inBody Loc.body
  rcases p with ⟨n, s, l, i⟩
  cases l with
  | void => simp
  | «at» a b => cases a <;> cases b <;> simp

/-! ## The client's loop -/

/-- The printed text of a parameter. -/
def textOf (args : Cells V) (p : Prm V) : Str :=
  match p.shape, args p.index with
  | .one k, .one v => k.print v
  | _, _ => []

/-- Names and texts of the path parameters. -/
def asgOf (args : Cells V) (ps : List (Prm V)) : List (Str × Str) :=
  (ps.filter (·.inPath)).map (fun p => (p.name, textOf args p))

/-- What a parameter adds to the query. -/
def addsOf (std : CStd V) (args : Cells V) (p : Prm V) : List (Str × Str) :=
  encodeQuery std.unquote p.name p.shape (args p.index)

/-- What all parameters add to the query. -/
def queryOf (std : CStd V) (args : Cells V) (ps : List (Prm V)) : List (Str × Str) :=
  ((ps.filter (·.inQuery)).map (addsOf std args)).flatten

/-- The mapping of the body parameters. -/
def mapOf (args : Cells V) (ps : List (Prm V)) (m : List (Str × Arg V)) : List (Str × Arg V) :=
  (ps.filter (·.inBody)).foldl (fun m p => mapSet m p.name (args p.index)) m

/-- The encoded body parameters one after the other. -/
def encOf (codec : Codec V) (args : Cells V) (ps : List (Prm V)) : Str :=
  ((ps.filter (·.inBody)).map (fun p => codec.enc (args p.index))).flatten

theorem write_all (std : CStd V) (codec : Str → Codec V) (op : Op V) (args : Cells V) :
    ∀ (ps : List (Prm V)) (w : Writing V),
      (∀ p ∈ ps, p.inPath = true → p.name.getLast? ≠ some '*' ∧
        ∃ k v, p.shape = .one k ∧ args p.index = .one v) →
      (∀ p ∈ ps, p.inBody = true → args p.index ≠ .nilPtr) →
      writeParams std codec op args ps w = some
        { path := (asgOf args ps).foldl replStep w.path
          query := w.query ++ queryOf std args ps
          mapping := if op.clientMaps then mapOf args ps w.mapping else w.mapping
          body := if op.clientMaps then w.body else w.body ++ encOf (codec op.ctype) args ps }
  | [], w, _, _ => by cases w; simp [writeParams, asgOf, queryOf, mapOf, encOf]
  | p :: ps, w, h1, h2 => by
    have ih := fun w => write_all std codec op args ps w
      (fun q hq => h1 q (List.mem_cons_of_mem _ hq)) (fun q hq => h2 q (List.mem_cons_of_mem _ hq))
    have h1 := h1 p (List.mem_cons_self ..)
    have h2 := h2 p (List.mem_cons_self ..)
    rw [writeParams]
    rcases p with ⟨n, sh, l, i⟩
    cases l with
    | void =>
      have : writeParam std codec op args ⟨n, sh, .void, i⟩ w = some w := rfl
      rw [this, Option.bind_some, ih w]
      rfl
    | «at» a b =>
      by_cases hbody : a = false ∧ b = false
      · obtain ⟨rfl, rfl⟩ := hbody
        have hn := h2 rfl
        dsimp only at hn
        have : writeParam std codec op args ⟨n, sh, .at false false, i⟩ w =
            some (if op.clientMaps then { w with mapping := mapSet w.mapping n (args i) }
              else { w with body := w.body ++ (codec op.ctype).enc (args i) }) := by
          unfold writeParam
          dsimp only
          cases e : args i with
          | nilPtr => exact absurd e hn
          | one v => dsimp only; split <;> rfl
          | many vs => dsimp only; split <;> rfl
        rw [this, Option.bind_some, ih]
        cases op.clientMaps <;>
          simp [asgOf, queryOf, mapOf, encOf, Prm.inPath, Prm.inQuery, Prm.inBody, List.filter_cons]
      · have hw : writeParam std codec op args ⟨n, sh, .at a b, i⟩ w =
            ((if a then (pathText std.printSlice sh (args i)).map fun t =>
                replaceFirst ('{' :: n ++ ['}'])
                  (if n.getLast? = some '*' then t else pathEscape t) w.path
              else some w.path).map fun path =>
              { w with path, query := if b then w.query ++ encodeQuery std.unquote n sh (args i)
                              else w.query }) := by
          cases a <;> cases b <;> first | rfl | exact absurd ⟨rfl, rfl⟩ hbody
        have hin : Prm.inBody (V := V) ⟨n, sh, .at a b, i⟩ = false := by
          cases a <;> cases b <;> first | rfl | exact absurd ⟨rfl, rfl⟩ hbody
        cases a with
        | false =>
          cases b with
          | false => exact absurd ⟨rfl, rfl⟩ hbody
          | true =>
            rw [hw]
            simp only [Bool.false_eq_true, if_false, if_true, Option.map_some, Option.bind_some]
            rw [ih]
            simp [asgOf, queryOf, mapOf, encOf, Prm.inPath, Prm.inQuery, Prm.inBody,
              List.filter_cons, addsOf]
        | true =>
          obtain ⟨hstar, k, v, e1, e2⟩ := h1 rfl
          dsimp only at e1 e2 hstar
          subst e1
          rw [hw]
          have ht : pathText std.printSlice (.one k) (args i) = some (k.print v) := by rw [e2]; rfl
          simp only [if_true, ht, Option.map_some, Option.bind_some, if_neg hstar]
          rw [ih]
          have hx : textOf args ⟨n, .one k, .at true b, i⟩ = k.print v := by simp [textOf, e2]
          cases b <;>
            simp [asgOf, queryOf, mapOf, encOf, Prm.inPath, Prm.inQuery, Prm.inBody,
              List.filter_cons, addsOf, hx, replStep]

/-! ## What the query holds -/

theorem encodeQuery_keys (uq : Str → Str) (n : Str) (sh : Shape V) (a : Arg V) :
    ∀ p ∈ encodeQuery uq n sh a, p.1 = n := by
  have one : ∀ (k : Kind V) (v : V), ∀ p ∈ encodeOne uq n k v, p.1 = n := by
    intro k v p hp
    unfold encodeOne at hp
    split at hp
    · simp at hp
    · split at hp
      · simp at hp; rw [hp]
      · split at hp <;> (simp at hp; rw [hp])
  intro p hp
  unfold encodeQuery at hp
  split at hp
  · exact one _ _ p hp
  · exact one _ _ p hp
  · rw [List.mem_flatten] at hp
    obtain ⟨l, hl, hp⟩ := hp
    obtain ⟨v, _, rfl⟩ := List.mem_map.mp hl
    exact one _ _ p hp
  · simp at hp

theorem valuesOf_append (a b : List (Str × Str)) (key : Str) :
    valuesOf (a ++ b) key = valuesOf a key ++ valuesOf b key := by
  simp [valuesOf]

theorem valuesOf_none (q : List (Str × Str)) (key : Str) (h : ∀ p ∈ q, p.1 ≠ key) :
    valuesOf q key = [] := by
  unfold valuesOf
  rw [List.filter_eq_nil_iff.mpr]
  · rfl
  · intro p hp; simpa using h p hp

theorem valuesOf_all (q : List (Str × Str)) (key : Str) (h : ∀ p ∈ q, p.1 = key) :
    valuesOf q key = q.map Prod.snd := by
  unfold valuesOf
  rw [List.filter_eq_self.mpr]
  intro p hp; simpa using h p hp

theorem valuesOf_queries (std : CStd V) (args : Cells V) (key : Str) :
    ∀ (ps : List (Prm V)), (∀ p ∈ ps, p.name ≠ key) →
      valuesOf ((ps.map (addsOf std args)).flatten) key = []
  | ps, h => by
    apply valuesOf_none
    intro x hx
    rw [List.mem_flatten] at hx
    obtain ⟨l, hl, hx⟩ := hx
    obtain ⟨p, hp, rfl⟩ := List.mem_map.mp hl
    rw [encodeQuery_keys _ _ _ _ x hx]
    exact h p hp

theorem valuesOf_query (std : CStd V) (args : Cells V) :
    ∀ (ps : List (Prm V)) (p : Prm V), p ∈ ps → (ps.map Prm.name).Nodup →
      valuesOf ((ps.map (addsOf std args)).flatten) p.name = (addsOf std args p).map Prod.snd
  | [], p, h, _ => by simp at h
  | q :: ps, p, h, hd => by
    rw [List.map_cons, List.nodup_cons] at hd
    rw [List.map_cons, List.flatten_cons, valuesOf_append]
    rcases List.mem_cons.mp h with rfl | h
    · rw [valuesOf_all _ _ (show ∀ x ∈ addsOf std args p, x.1 = p.name from encodeQuery_keys _ _ _ _), valuesOf_queries std args _ ps, List.append_nil]
      intro q hq e
      exact hd.1 (by rw [← e]; exact List.mem_map_of_mem hq)
    · rw [valuesOf_query std args ps p h hd.2, valuesOf_none, List.nil_append]
      intro x hx
      rw [encodeQuery_keys _ _ _ _ x hx]
      intro e
      exact hd.1 (by rw [e]; exact List.mem_map_of_mem h)

/-- The value of a parameter in the query of a call. -/
theorem getValue_call (std : CStd V) (args : Cells V) (cs : List (Str × Str)) (ps : List (Prm V))
    (p : Prm V) (hp : p ∈ ps) (hq : p.inQuery = true)
    (hd : (cs.map Prod.fst ++ (ps.filter (·.inQuery)).map Prm.name).Nodup) :
    valuesOf (cs ++ queryOf std args ps) p.name = (addsOf std args p).map Prod.snd := by
  have hm : p ∈ ps.filter (·.inQuery) := List.mem_filter.mpr ⟨hp, hq⟩
  obtain ⟨_, h2, h3⟩ := List.nodup_append.mp hd
  rw [valuesOf_append, valuesOf_none, List.nil_append]
  · exact valuesOf_query std args _ p hm h2
  · intro c hc e
    exact h3 c.1 (List.mem_map_of_mem hc) p.name (List.mem_map_of_mem hm) e

/-! ## The host's loop -/

theorem readText_printed (isNumber : Str → Bool) (quote : Str → Str) (k : Kind V) (v : V)
    (h : Printed k v) (hne : k.print v ≠ []) : readText isNumber quote k (k.print v) = some v := by
  unfold readText
  cases e : k.setString with
  | some f => simp [h.set f e]
  | none => simp [h.noText.1, h.noJSON.1, h.scan e hne]

/-- A parameter that is one value reads what was sent. -/
theorem readPlain_sent (std : Std) (cstd : CStd V) (args : Cells V) (p : Prm V) (rq : Request) (k : Kind V) (v : V)
    (hs : p.shape = .one k) (ha : args p.index = .one v)
    (hloc : p.inPath = true ∨ p.inQuery = true)
    (hp : p.inPath = true → Printed k v ∧ rq.mux.pathValue p.name = k.print v)
    (hq : p.inQuery = true → (Printed k v ∨ (p.inPath = false ∧ (Textual k v ∨ Jsonic std cstd k v))) ∧
      valuesOf rq.query p.name = (addsOf cstd args p).map Prod.snd) :
    readPlain std p rq = .ok (args p.index) := by
  -- it is enough to know the text
  have key : ∀ t, paramText p rq = t → (t = [] ∧ v = k.zero ∨
      t ≠ [] ∧ readText std.isNumber std.quote k t = some v) → readPlain std p rq = .ok (args p.index) := by
    intro t ht h
    unfold readPlain
    rw [hs]
    dsimp only
    rw [ht, ha]
    rcases h with ⟨h1, h2⟩ | ⟨h1, h2⟩
    · rw [if_pos h1, h2]
    · rw [if_neg h1, h2]
  have hprint : Printed k v → (k.print v = [] ∧ v = k.zero ∨
      k.print v ≠ [] ∧ readText std.isNumber std.quote k (k.print v) = some v) := by
    intro h
    by_cases e : k.print v = []
    · exact Or.inl ⟨e, h.empty e⟩
    · exact Or.inr ⟨e, readText_printed _ _ k v h e⟩
  have hval : p.inQuery = true → getValue rq.query p.name = ((addsOf cstd args p).map Prod.snd).headD [] := by
    intro h; unfold getValue; rw [(hq h).2]
  have hadds : addsOf cstd args p = encodeOne cstd.unquote p.name k v := by
    unfold addsOf; rw [hs, ha]; rfl
  rcases p with ⟨n, sh, l, i⟩
  cases l with
  | void => simp [Prm.inPath, Prm.inQuery] at hloc
  | «at» a b =>
    cases b with
    | false =>
      cases a with
      | false => simp [Prm.inPath, Prm.inQuery] at hloc
      | true =>
        obtain ⟨hpr, hpv⟩ := hp rfl
        exact key (k.print v) (by simp only [paramText, if_true, Bool.false_eq_true, if_false]; exact hpv) (hprint hpr)
    | true =>
      have hv := hval rfl
      rw [hadds] at hv
      have hq := (hq rfl).1
      by_cases hz : k.isZero v = true
      · have hv0 : getValue rq.query n = [] := by rw [hv, encodeOne, if_pos hz]; rfl
        cases a with
        | false =>
          refine key [] (by simp [paramText, hv0]) (Or.inl ⟨rfl, ?_⟩)
          rcases hq with h | ⟨_, h | h⟩ <;> exact h.zero.mp hz
        | true =>
          obtain ⟨hpr, hpv⟩ := hp rfl
          exact key (k.print v) (by simp only [paramText, if_true, hv0]; exact hpv) (hprint hpr)
      · rcases hq with h | ⟨_, h | h⟩
        · have hv : getValue rq.query n = k.print v := by
            rw [hv, encodeOne, if_neg hz, h.noText.2, h.noJSON.2]; rfl
          have hne : k.print v ≠ [] := fun e => hz (h.zero.mpr (h.empty e))
          exact key (k.print v) (by simp [paramText, hv, hne]) (hprint h)
        · obtain ⟨f, g, hf, hg, _, he, hr⟩ := h.both
          have hv : getValue rq.query n = f v := by
            rw [hv, encodeOne, if_neg hz, hf]; rfl
          have hne : f v ≠ [] := fun e => hz (h.zero.mpr (he e))
          refine key (f v) (by simp [paramText, hv, hne]) (Or.inr ⟨hne, ?_⟩)
          simp [readText, h.notString, hg, hr]
        · obtain ⟨f, g, hf, hg, h'⟩ := h.both
          rcases h' with ⟨h1, h2, _, h4, h5⟩ | ⟨h1, t, h2, h3, _, h5, h6⟩
          · have hv : getValue rq.query n = f v := by
              rw [hv, encodeOne, if_neg hz, h.noText.2, hf]
              dsimp only
              rw [if_neg h1]; rfl
            refine key (f v) (by simp [paramText, hv, h2]) (Or.inr ⟨h2, ?_⟩)
            rw [readText, h.notString]
            dsimp only
            rw [h.noText.1]
            dsimp only
            rw [hg]
            dsimp only
            rw [if_pos h4, h5]
          · have hv : getValue rq.query n = t := by
              rw [hv, encodeOne, if_neg hz, h.noText.2, hf]
              dsimp only
              rw [if_pos h1, h2]; rfl
            have hne : t ≠ [] := fun e => hz (h.zero.mpr (h3 e))
            refine key t (by simp [paramText, hv, hne]) (Or.inr ⟨hne, ?_⟩)
            rw [readText, h.notString]
            dsimp only
            rw [h.noText.1]
            dsimp only
            rw [hg]
            dsimp only
            split
            · rename_i hnum
              cases hw : g t with
              | none => exact h5
              | some w => dsimp only; rw [h6 hnum w hw]
            · exact h5

/-- The loop of the host when every parameter can be read. -/
theorem read_all (std : Std) (codec : Str → Codec V) (mapping : Bool) (ctype : Str) (rq : Request)
    (args : Cells V) :
    ∀ (ps : List (Prm V)) (st : Reading V),
      (ps.filter (fun p => p.loc ≠ .void)).Pairwise (fun p q => p.index ≠ q.index) →
      (∀ p ∈ ps, p.loc ≠ .void → p.inBody = false → readPlain std p rq = .ok (args p.index)) →
      (mapping = true ∧ st.mapped = (ps.filter (·.inBody)).map (fun p => args p.index) ∨
        mapping = false ∧ (ps.filter (·.inBody) = [] ∨ ∃ p rest, ps.filter (·.inBody) = [p] ∧
          decodeBody codec ctype p.shape st.body = .ok (args p.index, rest))) →
      ∃ st', readParams std codec mapping ctype rq ps st = .ok st' ∧
        (∀ p ∈ ps, p.loc ≠ .void → st'.cells p.index = args p.index) ∧
        (∀ i, (∀ p ∈ ps, p.loc ≠ .void → p.index ≠ i) → st'.cells i = st.cells i)
  | [], st, _, _, _ => ⟨st, rfl, by simp, fun _ _ => rfl⟩
  | p :: ps, st, hi, hr, hb => by
    by_cases hv : p.loc = .void
    · have hnb : p.inBody = false := by simp [Prm.inBody, hv]
      have e : readParam std codec mapping ctype rq p st = .ok st := by
        unfold readParam; rw [if_pos hv]
      rw [List.filter_cons_of_neg (by simp [hv])] at hi
      rw [List.filter_cons_of_neg (by simp [hnb])] at hb
      obtain ⟨st', h1, h2, h3⟩ := read_all std codec mapping ctype rq args ps st hi
        (fun q hq => hr q (List.mem_cons_of_mem _ hq)) hb
      refine ⟨st', by rw [readParams, e]; exact h1, ?_, ?_⟩
      · intro q hq hl
        rcases List.mem_cons.mp hq with rfl | hq
        · exact absurd hv hl
        · exact h2 q hq hl
      · intro i hq
        exact h3 i (fun q h => hq q (List.mem_cons_of_mem _ h))
    · rw [List.filter_cons_of_pos (by simp [hv]), List.pairwise_cons] at hi
      obtain ⟨hi1, hi2⟩ := hi
      have hi1 : ∀ q ∈ ps, q.loc ≠ .void → q.index ≠ p.index := by
        intro q hq hl e
        exact hi1 q (List.mem_filter.mpr ⟨hq, by simp [hl]⟩) e.symm
      -- one step sets the cell
      have step : ∃ st1, readParam std codec mapping ctype rq p st = .ok st1 ∧
          st1.cells = setCell st.cells p.index (args p.index) ∧
          (mapping = true ∧ st1.mapped = (ps.filter (·.inBody)).map (fun p => args p.index) ∨
            mapping = false ∧ (ps.filter (·.inBody) = [] ∨ ∃ p rest, ps.filter (·.inBody) = [p] ∧
              decodeBody codec ctype p.shape st1.body = .ok (args p.index, rest))) := by
        cases hbody : p.inBody with
        | false =>
          have hne : p.loc ≠ Loc.body := fun e => by
            rw [(inBody_iff p).mpr e] at hbody; exact absurd hbody (by decide)
          rw [List.filter_cons_of_neg (by simp [hbody])] at hb
          refine ⟨{ st with cells := setCell st.cells p.index (args p.index) }, ?_, rfl, hb⟩
          unfold readParam
          rw [if_neg hv, if_neg hne, hr p (List.mem_cons_self ..) hv hbody]
          rfl
        | true =>
          have he := (inBody_iff p).mp hbody
          rw [List.filter_cons_of_pos (by simp [hbody])] at hb
          unfold readParam
          rw [if_neg hv, if_pos he]
          rcases hb with ⟨hm, h⟩ | ⟨hm, h⟩
          · rw [if_pos hm, h, List.map_cons]
            exact ⟨_, rfl, rfl, Or.inl ⟨hm, rfl⟩⟩
          · rw [if_neg (by rw [hm]; decide)]
            rcases h with h | ⟨q, rest, h, hd⟩
            · exact absurd h (by simp)
            · injection h with h1 h2
              subst h1
              rw [hd]
              exact ⟨_, rfl, rfl, Or.inr ⟨hm, Or.inl h2⟩⟩
      obtain ⟨st1, e, hc, hb'⟩ := step
      obtain ⟨st', h1, h2, h3⟩ := read_all std codec mapping ctype rq args ps st1 hi2
        (fun q hq => hr q (List.mem_cons_of_mem _ hq)) hb'
      refine ⟨st', by rw [readParams, e]; exact h1, ?_, ?_⟩
      · intro q hq hl
        rcases List.mem_cons.mp hq with rfl | hq
        · rw [h3 _ hi1, hc]; simp [setCell]
        · exact h2 q hq hl
      · intro i hq
        rw [h3 i (fun q h => hq q (List.mem_cons_of_mem _ h)), hc]
        have := hq p (List.mem_cons_self ..) hv
        simp [setCell, Ne.symm this]

end Verif.Rest.Serve
