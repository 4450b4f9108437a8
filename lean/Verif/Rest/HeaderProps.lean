import Verif.Rest.HeaderModel
/-!
# C182: a client adds its headers, and C183: only for the host it is for
-/
namespace Verif.Rest.Header

variable {N V H : Type} [DecidableEq N]

/-- What a request should carry: the added headers, and otherwise what it had. -/
def overridden (added : List (N × V)) (h : Hdr N V) (n : N) : Option (List V) :=
  match added.find? (fun p => p.1 = n) with
  | some p => some [p.2]
  | none => h n

/-- No name twice: what a Go map with canonical names is. -/
def Distinct (added : List (N × V)) : Prop := (added.map Prod.fst).Nodup

theorem sets_eq : ∀ (added : List (N × V)) (h : Hdr N V), Distinct added →
    added.foldl (fun h p => h.set p.1 p.2) h = overridden added h
  | [], _, _ => rfl
  | p :: added, h, hd => by
    have hd' : p.1 ∉ added.map Prod.fst ∧ Distinct added := by simpa [Distinct, List.nodup_cons] using hd
    rw [List.foldl_cons, sets_eq added _ hd'.2]
    funext n
    by_cases e : p.1 = n
    · subst e
      have : added.find? (fun q => decide (q.1 = p.1)) = none := by
        rw [List.find?_eq_none]
        intro q hq hc
        exact hd'.1 (List.mem_map.2 ⟨q, hq, by simpa using hc⟩)
      simp [overridden, this, Hdr.set]
    · simp only [overridden, List.find?_cons, e, decide_false]
      cases added.find? (fun q => decide (q.1 = n)) with
      | none => simp [Hdr.set, Ne.symm e]
      | some q => rfl

theorem dels_eq : ∀ (added : List (N × V)) (h : Hdr N V) (n : N),
    added.foldl (fun h p => h.del p.1) h n = if n ∈ added.map Prod.fst then none else h n
  | [], _, _ => by simp
  | p :: added, h, n => by
    rw [List.foldl_cons, dels_eq added _ n]
    by_cases e : n = p.1 <;> by_cases e' : n ∈ added.map Prod.fst <;> simp_all [Hdr.del]

theorem sent_eq (added : List (N × V)) (h : Hdr N V) (hd : Distinct added) :
    (roundTrip added h).1 = overridden added h := sets_eq added h hd

/-- **C182** (every request): every request the client sends, the first and those of redirects, carries each of the
added headers with its value and nothing else under that name; the first carries all else the caller gave it. -/
theorem headers_added (added : List (N × V)) (drop : Nat → N → Bool) (host : H) (redirects : List H) (h : Hdr N V)
    (hd : Distinct added) :
    (∀ r ∈ (clientDo added drop host redirects h).1, ∀ p ∈ added, r.headers p.1 = some [p.2]) ∧
    ((clientDo added drop host redirects h).1.map Sent.host = host :: redirects) ∧
    (∀ r, (clientDo added drop host redirects h).1.head? = some r → ∀ n, n ∉ added.map Prod.fst → r.headers n = h n) := by
  have found : ∀ (h : Hdr N V), ∀ p ∈ added, overridden added h p.1 = some [p.2] := by
    intro h p hp
    have : added.find? (fun q => decide (q.1 = p.1)) = some p := by
      clear h
      induction added with
      | nil => cases hp
      | cons q l ih =>
        have hd' : q.1 ∉ l.map Prod.fst ∧ Distinct l := by simpa [Distinct, List.nodup_cons] using hd
        rcases List.mem_cons.1 hp with rfl | hp
        · simp
        · have : q.1 ≠ p.1 := fun e => hd'.1 (e ▸ List.mem_map.2 ⟨p, hp, rfl⟩)
          simp [List.find?_cons, this, ih hd'.2 hp]
    simp [overridden, this]
  refine ⟨?_, ?_, ?_⟩
  · intro r hr p hp
    simp only [clientDo, List.mem_cons, List.mem_map] at hr
    rcases hr with rfl | ⟨q, _, rfl⟩
    · show (roundTrip added h).1 p.1 = _
      rw [sent_eq _ _ hd]; exact found h p hp
    · show (roundTrip added _).1 p.1 = _
      rw [sent_eq _ _ hd]; exact found _ p hp
  · simp only [clientDo, List.map_cons, List.map_map, List.cons.injEq, true_and]
    have : (Sent.host ∘ fun r : H × Nat => (⟨r.1, (roundTrip added (fun n => if drop r.2 n then none else h n)).1⟩ : Sent N V H)) = Prod.fst := rfl
    rw [this]
    exact List.zipIdx_map_fst 0 redirects
  · intro r hr n hn
    simp only [clientDo, List.head?_cons, Option.some.injEq] at hr
    subst hr
    show (roundTrip added h).1 n = _
    rw [sent_eq _ _ hd, overridden]
    have : added.find? (fun q => decide (q.1 = n)) = none := by
      rw [List.find?_eq_none]
      intro q hq hc
      exact hn (List.mem_map.2 ⟨q, hq, by simpa using hc⟩)
    simp [this]

/-- **C182** (order): what is sent does not depend on the order in which Go visits the map of headers. -/
theorem headers_added_in_any_order (added added' : List (N × V)) (hp : added.Perm added') (h : Hdr N V)
    (hd : Distinct added) : (roundTrip added h).1 = (roundTrip added' h).1 := by
  have hd' : Distinct added' := (hp.map Prod.fst).nodup_iff.1 hd
  rw [sent_eq _ _ hd, sent_eq _ _ hd']
  funext n
  have key : ∀ (l l' : List (N × V)), l.Perm l' → Distinct l → l.find? (fun p => decide (p.1 = n)) = l'.find? (fun p => decide (p.1 = n)) := by
    intro l l' hl hdl
    have uniq : ∀ (l : List (N × V)), Distinct l → ∀ p ∈ l, p.1 = n → l.find? (fun p => decide (p.1 = n)) = some p := by
      intro l
      induction l with
      | nil => intro _ p hp; cases hp
      | cons q l ih =>
        intro hdq p hp e
        have hd' : q.1 ∉ l.map Prod.fst ∧ Distinct l := by simpa [Distinct, List.nodup_cons] using hdq
        rcases List.mem_cons.1 hp with rfl | hp
        · simp [e]
        · have : q.1 ≠ n := fun e' => hd'.1 (List.mem_map.2 ⟨p, hp, by rw [e, e']⟩)
          simp [List.find?_cons, this, ih hd'.2 p hp e]
    cases hf : l.find? (fun p => decide (p.1 = n)) with
    | some p =>
      have hm := List.mem_of_find?_eq_some hf
      have he : p.1 = n := by simpa using List.find?_some hf
      exact (uniq l' ((hl.map Prod.fst).nodup_iff.1 hdl) p (hl.mem_iff.1 hm) he).symm
    | none =>
      symm
      rw [List.find?_eq_none] at hf ⊢
      exact fun q hq => hf q (hl.mem_iff.2 hq)
  rw [overridden, overridden, key added added' hp hd]

/-- **C182** (the caller's request), exactly: the caller's headers are as they were if and only if none of the added
names were among them. -/
theorem request_kept_iff (added : List (N × V)) (drop : Nat → N → Bool) (host : H) (redirects : List H) (h : Hdr N V)
    (hd : Distinct added) :
    (clientDo added drop host redirects h).2 = h ↔ ∀ n ∈ added.map Prod.fst, h n = none := by
  have e : (clientDo added drop host redirects h).2 = fun n => if n ∈ added.map Prod.fst then none else h n := by
    funext n
    show (roundTrip added h).2 n = _
    have := dels_eq added.reverse (roundTrip added h).1 n
    simp only [roundTrip] at this ⊢
    rw [this]
    by_cases hn : n ∈ added.map Prod.fst
    · simp [hn]
    · have hr : n ∉ added.reverse.map Prod.fst := by simpa using hn
      rw [if_neg hr, if_neg hn, sets_eq _ _ hd, overridden]
      have : added.find? (fun q => decide (q.1 = n)) = none := by
        rw [List.find?_eq_none]
        intro q hq hc
        exact hn (List.mem_map.2 ⟨q, hq, by simpa using hc⟩)
      simp [this]
  rw [e]
  constructor
  · intro h' n hn
    have := congrFun h' n
    simp only [if_pos hn] at this
    exact this.symm
  · intro h'
    funext n
    by_cases hn : n ∈ added.map Prod.fst
    · simp [hn, h' n hn]
    · simp [hn]

/-- **C182** (the caller's request), the full claim is false: a header the caller had set is deleted. -/
theorem request_kept_fails : ∃ (added : List (Nat × Nat)) (h : Hdr Nat Nat), Distinct added ∧ h 1 = some [5] ∧
    (clientDo (H := Nat) added (fun _ _ => false) 0 [] h).2 1 = none :=
  ⟨[(1, 7)], fun n => if n = 1 then some [5] else none, by simp [Distinct], rfl, rfl⟩

/-- **C183**, refuted: the headers, which hold the credentials, are sent to every host a server redirects to,
whatever Go's own client would leave out. -/
theorem credentials_leave_the_host (added : List (N × V)) (drop : Nat → N → Bool) (host other : H) (h : Hdr N V)
    (before after : List H) (hd : Distinct added) :
    ∃ r ∈ (clientDo added drop host (before ++ other :: after) h).1, r.host = other ∧
      ∀ p ∈ added, r.headers p.1 = some [p.2] := by
  obtain ⟨h1, h2, _⟩ := headers_added added drop host (before ++ other :: after) h hd
  have : other ∈ (clientDo added drop host (before ++ other :: after) h).1.map Sent.host := by
    rw [h2]; simp
  obtain ⟨r, hr, e⟩ := List.mem_map.1 this
  exact ⟨r, hr, e, h1 r hr⟩

/-- The statement of C183: credentials are sent to no host but the one the client was asked to call. -/
def CredentialsStay (added : List (N × V)) : Prop :=
  ∀ (drop : Nat → N → Bool) (host : Nat) (redirects : List Nat) (h : Hdr N V),
    ∀ r ∈ (clientDo added drop host redirects h).1, (∃ p ∈ added, r.headers p.1 = some [p.2]) → r.host = host

/-- **C183**, the claim is false of every client that adds a header. -/
theorem credentials_stay_fails (added : List (N × V)) (hd : Distinct added) (hne : added ≠ []) :
    ¬ CredentialsStay added := by
  intro hc
  obtain ⟨r, hr, e, hh⟩ := credentials_leave_the_host added (fun _ _ => true) 0 1 (fun _ => none) [] [] hd
  obtain ⟨p, l, rfl⟩ := List.exists_cons_of_ne_nil hne
  have := hc (fun _ _ => true) 0 [1] (fun _ => none) r hr ⟨p, List.mem_cons_self, hh p List.mem_cons_self⟩
  omega

example : Distinct [(1, 7), (2, 8)] ∧
    ((clientDo [(1, 7), (2, 8)] (fun _ _ => true) 0 [9] (fun n => if n = 3 then some [4] else none)).1.map
      fun r => (r.host, r.headers 1, r.headers 3)) = [(0, some [7], some [4]), (9, some [7], none)] := by
  exact ⟨by simp [Distinct], by decide⟩

end Verif.Rest.Header
