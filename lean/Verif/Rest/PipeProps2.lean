import Verif.Rest.PipeProps
import Verif.Rest.ServeFails
/-!
# C120, C122-C131: what a host does with a request, continued
-/
namespace Verif.Rest.Serve

open Verif.Rest Verif.Rest.Spec

variable {V C : Type}

/-- Shorthand for texts. -/
private def S (s : String) : Str := s.toList

/-! ## C120: pages without authentication -/

/-- C120: what `Handlers` serves besides the operations and the documentation asks no
authenticator. -/
def PagesClaim : Prop :=
  ∀ examples rs m p h, inForce (registrations examples rs) m p = some h → h.authenticates = true

/-- C120 fails: a path without a GET operation shows its form to everyone, for every API. -/
theorem pages_fails_form (examples : Bool) (rs : List Resource) (hp : (rs.map Resource.path).Nodup)
    (r : Resource) (hr : r ∈ rs) (hd : r.methods.Nodup) (hg : mGet ∉ r.methods) :
    ∃ h, inForce (registrations examples rs) mGet r.path = some h ∧ h.authenticates = false := by
  have := handlers_partial examples rs hp r hr hd mGet (fun e => absurd e (by decide)) (Or.inr (Or.inr rfl))
  rw [if_neg hg, if_neg (by decide)] at this
  exact ⟨_, this, rfl⟩

/-- C120 fails: the examples are shown to everyone. -/
theorem pages_fails_examples (rs : List Resource)
    (h : ∀ r ∈ rs, r.path ≠ "/examples/{name}".toList) :
    ∃ h, inForce (registrations true rs) mGet "/examples/{name}".toList = some h ∧
      h.authenticates = false := by
  refine ⟨.example, ?_, rfl⟩
  unfold registrations
  rw [inForce_append, inForce_none (a := (rs.map attachResource).flatten)]
  · decide
  · intro x hx _ e
    obtain ⟨l, hl, hx⟩ := List.mem_flatten.mp hx
    obtain ⟨r, hr, rfl⟩ := List.mem_map.mp hl
    rw [attach_path hx] at e
    exact h r hr e

/-- C120, what holds: an operation authenticates first, whatever else is registered. -/
theorem operations_authenticate_partial (examples : Bool) (rs : List Resource)
    (hp : (rs.map Resource.path).Nodup) (r : Resource) (hr : r ∈ rs) (hd : r.methods.Nodup) (m : Str)
    (hmem : m ∈ r.methods)
    (hm : m = mOptions → mGet ∉ r.methods) :
    ∃ h, inForce (registrations examples rs) m r.path = some h ∧ h.authenticates = true := by
  have := handlers_partial examples rs hp r hr hd m (fun e hc => hm e hc.1) (Or.inl hmem)
  rw [if_pos hmem] at this
  exact ⟨_, this, rfl⟩

example : ∃ h, inForce (registrations true [⟨S "/a", [S "POST"]⟩, ⟨S "/b", [S "PUT", S "GET"]⟩])
    (S "PUT") (S "/b") = some h ∧ h.authenticates = true :=
  operations_authenticate_partial _ _ (by decide) ⟨S "/b", [S "PUT", S "GET"]⟩ (by simp) (by decide) _
    (by decide) (by decide)

/-- The property is false. -/
theorem pages_fails : ¬ PagesClaim := by
  intro h
  obtain ⟨x, h1, h2⟩ := pages_fails_form false [⟨S "/a", [S "POST"]⟩] (by decide) ⟨S "/a", [S "POST"]⟩
    (by simp) (by decide) (by decide)
  rw [h _ _ _ _ _ h1] at h2
  cases h2

/-! ## C125: the order of maps -/

/-- C125: what is in force does not depend on the order in which Go ranges over the paths and
the methods. -/
def OrderClaim : Prop :=
  ∀ examples (p : Str) (ms ms' : List Str), ms.Perm ms' → ms.Nodup → ∀ m q,
    inForce (registrations examples [⟨p, ms⟩]) m q = inForce (registrations examples [⟨p, ms'⟩]) m q

/-- C125 fails: with functions for GET and OPTIONS of one path, the order of the map decides
whether OPTIONS calls the function. -/
theorem options_order_fails :
    inForce (registrations false [⟨S "/a", [S "GET", S "OPTIONS"]⟩]) mOptions (S "/a") =
      some (.op mOptions (S "/a")) ∧
    inForce (registrations false [⟨S "/a", [S "OPTIONS", S "GET"]⟩]) mOptions (S "/a") =
      some (.optionsFor (S "/a")) := by
  decide

/-- C125 is false. -/
theorem order_fails : ¬ OrderClaim := by
  intro h
  have h1 := h false (S "/a") [S "GET", S "OPTIONS"] [S "OPTIONS", S "GET"] (List.Perm.swap ..)
    (by decide) mOptions (S "/a")
  rw [options_order_fails.1, options_order_fails.2] at h1
  cases h1

/-- A preflight for a path with a GET operation, but none for OPTIONS, never asks the
authenticator about the function of the GET operation, in no order: that handler is replaced
by the one that asks about no function. -/
theorem preflight_fails (examples : Bool) (rs : List Resource) (hp : (rs.map Resource.path).Nodup)
    (r : Resource) (hr : r ∈ rs) (hd : r.methods.Nodup) (ho : mOptions ∉ r.methods) :
    inForce (registrations examples rs) mOptions r.path = some (.options r.path) := by
  have := handlers_partial examples rs hp r hr hd mOptions (fun _ hc => ho hc.2) (Or.inr (Or.inl rfl))
  rwa [if_neg ho, if_pos rfl] at this

/-- The segments of a path. -/
def segsOf (p : Str) : List Seg :=
  (split '/' (p.drop 1)).map fun s =>
    if s.head? = some '{' ∧ s.getLast? = some '}' then .par (s.drop 1).dropLast else .lit s

/-- The routes of the router, in the order of registration. -/
def routesOf (regs : List (Str × Str × Handler)) : List (Route Handler) :=
  regs.map fun r => ⟨r.1, segsOf r.2.1, r.2.2⟩

private def handlerAt (rs : List (Route Handler)) (m : String) (segs : List String) : Option Handler :=
  match (Node.mux (insAll rs) []).serve (requestFor (S m) (segs.map S)) with
  | .handled h _ => some h
  | .notFound _ => none

private theorem handlerAt_some {rs : List (Route Handler)} (hc : cleanB rs = true) {m : String}
    {segs : List String} {h : Handler} (e : handlerAt rs m segs = some h) :
    ∃ r, (routerOf rs).serve (requestFor (S m) (segs.map S)) = .handled h r := by
  unfold routerOf
  rw [router_eq rs (clean_of rs hc)]
  unfold handlerAt at e
  split at e
  · next h' r h1 => simp at e; exact ⟨r, by rw [h1, e]⟩
  · cases e

/-- C125 fails for paths that differ only in the names of their parameters: with
`GET /a/{x}` and `POST /a/{y}`, the order of the map decides whether GET calls the function or
shows the form of the other path. -/
theorem paths_order_fails :
    (∃ r, (routerOf (routesOf ([⟨S "/a/{y}", [S "POST"]⟩, ⟨S "/a/{x}", [S "GET"]⟩].map
      attachResource).flatten)).serve (requestFor (S "GET") [S "a", S "7"]) =
        .handled (.op (S "GET") (S "/a/{x}")) r) ∧
    (∃ r, (routerOf (routesOf ([⟨S "/a/{x}", [S "GET"]⟩, ⟨S "/a/{y}", [S "POST"]⟩].map
      attachResource).flatten)).serve (requestFor (S "GET") [S "a", S "7"]) =
        .handled (.form (S "/a/{y}")) r) :=
  ⟨handlerAt_some (m := "GET") (segs := ["a", "7"]) (by decide +kernel) (by decide +kernel),
    handlerAt_some (m := "GET") (segs := ["a", "7"]) (by decide +kernel) (by decide +kernel)⟩

/-! ## C128: duplicates -/

/-- The last function of a list with this path and method. -/
def lastOf {F : Type} : List (Tagged F) → Str → Str → Option F
  | [], _, _ => none
  | t :: ts, p, m => match lastOf ts p m with
    | some f => some f
    | none => if t.path = p ∧ t.method = m then some t.fn else none

private theorem load_find {F : Type} (ts : List (Tagged F)) (s : Loaded F) (p m : Str) :
    ((ts.foldl (fun s t => loadOperation t s) s).ops.find? (fun e => e.1 = (p, m))).map Prod.snd =
      (lastOf ts p m).or ((s.ops.find? (fun e => e.1 = (p, m))).map Prod.snd) := by
  induction ts generalizing s with
  | nil => simp [lastOf]
  | cons t ts ih =>
    rw [List.foldl_cons, ih, lastOf]
    cases hl : lastOf ts p m with
    | some f => rfl
    | none =>
      dsimp only
      rw [Option.none_or]
      unfold loadOperation
      dsimp only
      rw [List.find?_append]
      by_cases h : t.path = p ∧ t.method = m
      · rw [if_pos h, h.1, h.2]
        have : (s.ops.filter (fun e => decide (e.1 ≠ (p, m)))).find? (fun e => decide (e.1 = (p, m))) = none := by
          rw [List.find?_eq_none]
          intro e he
          have := (List.mem_filter.mp he).2
          simpa using this
        rw [this]
        simp
      · rw [if_neg h, Option.none_or]
        have hne : (t.path, t.method) ≠ (p, m) := fun e => h (by simpa using e)
        have : (s.ops.filter (fun e => decide (e.1 ≠ (t.path, t.method)))).find?
            (fun e => decide (e.1 = (p, m))) = s.ops.find? (fun e => decide (e.1 = (p, m))) := by
          rw [List.find?_filter]
          congr 1
          funext e
          by_cases he : e.1 = (p, m)
          · have : e.1 ≠ (t.path, t.method) := fun e' => hne (e'.symm.trans he)
            rw [decide_eq_true he, decide_eq_true this]; rfl
          · simp [he]
        rw [this]
        simp [hne]

/-- C128: a function answers its method and path if it is the last with them. -/
theorem last_function_wins {F : Type} (ts : List (Tagged F)) (p m : Str) :
    ∃ s, specificationOf ts = some s ∧
      (s.ops.find? (fun e => e.1 = (p, m))).map Prod.snd = lastOf ts p m := by
  refine ⟨_, rfl, ?_⟩
  rw [load_find]
  simp

/-- C128: two functions with one method and path are refused. -/
def DuplicatesClaim : Prop :=
  ∀ ts : List (Tagged Nat), (∃ s, specificationOf ts = some s) → (ts.map (fun t => (t.path, t.method))).Nodup

/-- C128 is false: the earlier function is silently unreachable. -/
theorem duplicates_fails : ¬ DuplicatesClaim ∧
    ∃ s, specificationOf [⟨S "GET", S "/a", 1⟩, ⟨S "GET", S "/a", 2⟩] = some s ∧
      s.ops = [((S "/a", S "GET"), 2)] ∧ s.duplicates ≠ [] :=
  ⟨fun h => absurd (h [⟨S "GET", S "/a", 1⟩, ⟨S "GET", S "/a", 2⟩] ⟨_, rfl⟩) (by decide),
    _, rfl, by decide, by decide⟩

/-! ## C130: parameters for other routers -/

/-- C130 fails: the format of remainders is never used, for no part of no path. -/
theorem remainder_never_used (pf rf rf' : Str → Str) (part : Str) :
    reformat pf rf part = reformat pf rf' part := by
  unfold reformat
  by_cases h : part.head? = some '{' ∧ part.getLast? = some '}'
  · rw [if_pos h, if_pos h, if_neg, if_neg]
    all_goals (rw [h.2]; decide)
  · rw [if_neg h, if_neg h]

/-- C130, what holds: a parameter is formatted with its name, and other parts stay. -/
theorem parameter_formatted_partial (pf rf : Str → Str) (n : Str) (hn : n.getLast? ≠ some '*') :
    reformat pf rf ('{' :: n ++ ['}']) = pf n ∧
      ∀ part, part.head? ≠ some '{' → reformat pf rf part = part := by
  refine ⟨?_, ?_⟩
  · unfold reformat
    have h1 : ('{' :: n ++ ['}']).head? = some '{' := rfl
    have h2 : ('{' :: n ++ ['}']).getLast? = some '}' := List.getLast?_concat ..
    rw [if_pos ⟨h1, h2⟩, if_neg (by rw [h2]; decide)]
    congr 1
    show (n ++ ['}']).dropLast = n
    rw [List.dropLast_concat]
  · intro part h
    unfold reformat
    rw [if_neg (fun hc => h hc.1)]

example : reformat (fun n => ':' :: n) id (S "{id}") = S ":id" := by decide

/-! ## C131: what an error gives away -/

/-- C131: what is answered depends on an error only through what `Redact` makes of it. -/
def RedactClaim : Prop :=
  ∀ (redact : PErr → PErr) scenarios (e e' : PErr) w, redact e = redact e' →
    handleW redact scenarios e w = handleW redact scenarios e' w

/-- C131, what holds: apart from the headers the error sets. -/
theorem redacted_partial (redact : PErr → PErr) (scenarios : List Scen) (e e' : PErr) (w : W)
    (h : redact e = redact e') (hh : e.headers = e'.headers) :
    handleW redact scenarios e w = handleW redact scenarios e' w := by
  unfold handleW
  rw [h, hh]

example : handleW (fun _ => argumentErr (S "internal")) [] ⟨⟨S "secret", none, false⟩, [], none⟩ {} =
    handleW (fun _ => argumentErr (S "internal")) [] ⟨⟨S "other", some 404, false⟩, [], none⟩ {} :=
  redacted_partial _ _ _ _ _ rfl rfl

/-- C131 is false: the headers of the error are sent, whatever `Redact` does. -/
theorem redacted_fails : ¬ RedactClaim := by
  intro h
  have := h (fun _ => argumentErr (S "internal")) [] ⟨⟨S "e", none, false⟩, [(S "X-Account", S "7")], none⟩
    ⟨⟨S "e", none, false⟩, [], none⟩ {} rfl
  exact absurd this (by decide)

/-- C131: no argument that is not a pointer is given the headers of the request, and of the
pointers only whole arguments, which are nil. -/
theorem headers_read_only_nil (direct pointer element : Bool) :
    headersRead direct pointer element = true ↔ direct = true ∧ pointer = true ∧ element = false := by
  cases direct <;> cases pointer <;> cases element <;> decide

end Verif.Rest.Serve
