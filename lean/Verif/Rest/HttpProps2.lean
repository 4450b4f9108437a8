import Verif.Rest.HttpProps
/-!
# C215: the caller learns of an error, also through services in between
-/
namespace Verif.Rest

/-- C215: the caller of a linked function gets an error just for the statuses outside 200 to 299, except a 404 on DELETE. -/
theorem client_error_iff (method : Str) (r : Resp) :
    (clientError method r).isSome = true ↔ ¬ (200 ≤ r.code ∧ r.code ≤ 299) ∧ ¬ (r.code = 404 ∧ method = "DELETE".toList) := by
  unfold clientError
  by_cases h : r.code < 200 ∨ 299 < r.code
  · rw [if_pos h]
    unfold decodeError
    by_cases h4 : r.code = 404
    · rw [if_pos h4]
      by_cases hm : method = "DELETE".toList
      · rw [if_pos hm]; simp [h4, hm]
      · rw [if_neg hm]
        have : ¬ (200 ≤ r.code ∧ r.code ≤ 299) := by omega
        exact ⟨fun _ => ⟨this, fun h => hm h.2⟩, fun _ => rfl⟩
    · rw [if_neg h4]
      have : ¬ (200 ≤ r.code ∧ r.code ≤ 299) := by omega
      cases responseError r <;> simp [this, h4]
  · rw [if_neg h]
    have : 200 ≤ r.code ∧ r.code ≤ 299 := by omega
    simp [this]

/-- C215, exactly when an error of the implementation is answered, and when the caller is told: `s` is the status it is answered
with. A status outside 100 to 999 makes the server panic; 1xx (but 101) and 2xx look like success, and so does 404 on DELETE. -/
theorem error_arrives_iff (statusLine : Nat → Str) (redact : SErr → SErr) (scenarios : List Scen) (method : Str) (err : SErr)
    (s : Nat) (m : Str) (hh : handleErr redact scenarios err = (s, m)) :
    (travel statusLine redact scenarios method err = none ↔ s < 100 ∨ 999 < s) ∧
    ((∃ e, travel statusLine redact scenarios method err = some (some e)) ↔
      s = 101 ∨ (300 ≤ s ∧ s ≤ 999 ∧ ¬ (s = 404 ∧ method = "DELETE".toList))) := by
  unfold travel
  rw [hh]
  unfold httpError
  dsimp only
  by_cases h : s < 100 ∨ 999 < s
  · rw [if_pos h]
    simp only [Option.map_none, reduceCtorEq, exists_false, false_iff, true_iff]
    exact ⟨h, by omega⟩
  · rw [if_neg h]
    simp only [Option.map_some, reduceCtorEq, false_iff, Option.some.injEq]
    refine ⟨h, ?_⟩
    rw [← Option.isSome_iff_exists, client_error_iff]
    dsimp only
    by_cases hc : s < 200 ∧ s ≠ 101
    · rw [if_pos hc]
      constructor
      · intro h'; exact absurd ⟨by decide, by decide⟩ h'.1
      · intro h'; omega
    · rw [if_neg hc]
      constructor
      · rintro ⟨h1, h2⟩
        by_cases h101 : s = 101
        · exact .inl h101
        · exact .inr ⟨by omega, by omega, h2⟩
      · rintro (rfl | ⟨h1, h2, h3⟩)
        · exact ⟨by decide, fun h => absurd h.1 (by decide)⟩
        · exact ⟨by omega, h3⟩

/-- An error with status 304 or 101 arrives without its text, whatever it was: those responses have no body. -/
theorem bodiless_error (statusLine : Nat → Str) (method : Str) (text : Str) (s : Nat) (hs : s = 304 ∨ s = 101) :
    ∃ subject, travel statusLine id [] method ⟨text, some s, false⟩ = some (some (.response s subject [])) := by
  rcases hs with rfl | rfl
  · exact ⟨_, rfl⟩
  · exact ⟨_, rfl⟩

/-! ## Services in between -/

/-- An implementation that returns the error of a linked function as it is: what its own server sees of it (`host.go:561-574`
asks for `StatusHTTP` and the text; http.go:55-67). -/
def relay (statusText : Nat → Str) (e : CErr) : SErr := ⟨e.text statusText, e.statusHTTP, false⟩

/-- The error after services in between, each called with a method of its own and passing on what it got. -/
def relayed (statusLine statusText : Nat → Str) : List Str → CErr → Option (Option CErr)
  | [], e => some (some e)
  | method :: rest, e =>
    match travel statusLine id [] method (relay statusText e) with
    | some (some e') => relayed statusLine statusText rest e'
    | other => other

private theorem head_dropWhile (s : Str) : ∀ c, (s.dropWhile isSpace).head? = some c → isSpace c = false := by
  induction s with
  | nil => simp
  | cons a s ih =>
    intro c hc
    rw [List.dropWhile_cons] at hc
    split at hc
    · exact ih c hc
    · next h =>
      have : a = c := by simpa using hc
      subst this; simpa using h

private theorem dropWhile_id {s : Str} (h : ∀ c, s.head? = some c → isSpace c = false) : s.dropWhile isSpace = s := by
  cases s with
  | nil => rfl
  | cons a s => rw [List.dropWhile_cons, if_neg (by simp [h a rfl])]

/-- Trimming a text twice is trimming it once. -/
theorem trimSpace_twice (s : Str) : trimSpace (trimSpace s) = trimSpace s := by
  -- the last character stays, so does the first
  have h1 : ∀ c, (trimSpace s).getLast? = some c → isSpace c = false := by
    intro c hc
    unfold trimSpace at hc
    rw [List.getLast?_reverse] at hc
    exact head_dropWhile _ c hc
  have h2 : ∀ c, (trimSpace s).head? = some c → isSpace c = false := by
    intro c hc
    unfold trimSpace at hc
    rw [List.head?_reverse] at hc
    have hsuf : (List.dropWhile isSpace (List.dropWhile isSpace s).reverse) <:+ (List.dropWhile isSpace s).reverse :=
      List.dropWhile_suffix _
    obtain ⟨pre, hpre⟩ := hsuf
    have : (List.dropWhile isSpace s).reverse.getLast? = some c := by
      rw [← hpre, List.getLast?_append, hc]; rfl
    rw [List.getLast?_reverse] at this
    exact head_dropWhile _ c this
  generalize trimSpace s = t at h1 h2 ⊢
  unfold trimSpace
  rw [dropWhile_id h2, dropWhile_id (s := t.reverse) (by rw [List.head?_reverse]; exact h1), List.reverse_reverse]

/-- C215, what holds: an error with a status from 300 to 999 (but 304, 404, 500 and the five with texts of the client's own) keeps
its status and text through any number of services that pass it on. -/
theorem relayed_partial (statusLine statusText : Nat → Str) (s : Nat) (m : Str) (h1 : 300 ≤ s) (h2 : s ≤ 999)
    (h3 : s ∉ [304, 404, 500, 411, 413, 414, 429, 431]) (hm : m ≠ []) (ht : trimSpace m = m)
    (methods : List Str) (subject : Str) : ∃ subject',
      relayed statusLine statusText methods (.response s subject m) = some (some (.response s subject' m)) := by
  have step : ∀ method subject, ∃ sub, travel statusLine id [] method (relay statusText (.response s subject m)) =
      some (some (.response s sub m)) := by
    intro method subject
    have h0 : ¬ s = 0 := by omega
    have e1 : (CErr.response s subject m).text statusText = m := by unfold CErr.text; exact if_neg hm
    have e2 : (CErr.response s subject m).statusHTTP = some s := by unfold CErr.statusHTTP; exact congrArg some (if_neg h0)
    have hr : relay statusText (.response s subject m) = ⟨m, some s, false⟩ := by
      unfold relay
      rw [e1, e2]
    obtain ⟨sub, hs⟩ := error_travels_partial statusLine id [] method ⟨m, some s, false⟩ s m
      (handle_status [] _ s (by omega) rfl (by simp)) h1 h2 h3
    rw [ht] at hs
    exact ⟨sub, by rw [hr]; exact hs⟩
  induction methods generalizing subject with
  | nil => exact ⟨subject, rfl⟩
  | cons method rest ih =>
    obtain ⟨sub, hs⟩ := step method subject
    obtain ⟨sub', h'⟩ := ih sub
    refine ⟨sub', ?_⟩
    rw [relayed, hs]
    exact h'

/-- What arrives is trimmed, so the hypotheses of `relayed_partial` are met by every error that arrived with a text. -/
example (statusLine statusText : Nat → Str) : ∃ e subject, travel statusLine id [] "PUT".toList ⟨" taken\n".toList, some 409, false⟩ = some (some e) ∧
    relayed statusLine statusText ["GET".toList, "DELETE".toList, "POST".toList] e = some (some (.response 409 subject "taken".toList)) := by
  obtain ⟨sub, hs⟩ := error_travels_partial statusLine id [] "PUT".toList ⟨" taken\n".toList, some 409, false⟩ 409 _
    (handle_status [] _ 409 (by decide) rfl (by simp)) (by decide) (by decide) (by decide)
  have ht : trimSpace " taken\n".toList = "taken".toList := by decide
  rw [ht] at hs
  obtain ⟨sub', h'⟩ := relayed_partial statusLine statusText 409 "taken".toList (by decide) (by decide) (by decide) (by decide) (by decide)
    ["GET".toList, "DELETE".toList, "POST".toList] sub
  exact ⟨_, sub', hs, h'⟩

/-- C215, the full property: passing an error on through one more service does not change its status. -/
def RelayClaim (statusLine statusText : Nat → Str) : Prop :=
  ∀ text s method, 300 ≤ s → s ≤ 599 → ∀ e, travel statusLine id [] "GET".toList ⟨text, some s, false⟩ = some (some e) →
    ∃ e', travel statusLine id [] method (relay statusText e) = some (some e') ∧ e'.statusHTTP = some s

/-- C215 fails for 404: the next service answers it with 500, and the text of that is what the caller sees. -/
theorem relayed_fails (statusLine statusText : Nat → Str) :
    ¬ RelayClaim statusLine statusText ∧
    ∀ method text, ∃ e, travel statusLine id [] "GET".toList ⟨text, some 404, false⟩ = some (some e) ∧
      travel statusLine id [] method (relay statusText e) =
        some (some (.traced ("unexpected status : ".toList ++ statusLine 500 ++ ' ' :: "not found\n".toList))) := by
  have key : ∀ method text, ∃ e, travel statusLine id [] "GET".toList ⟨text, some 404, false⟩ = some (some e) ∧
      travel statusLine id [] method (relay statusText e) =
        some (some (.traced ("unexpected status : ".toList ++ statusLine 500 ++ ' ' :: "not found\n".toList))) := by
    intro method text
    exact ⟨.notFound, rfl, rfl⟩
  refine ⟨?_, key⟩
  intro h
  obtain ⟨e, h1, h2⟩ := key "GET".toList "x".toList
  obtain ⟨e', h3, h4⟩ := h "x".toList 404 "GET".toList (by decide) (by decide) e h1
  rw [h2] at h3
  injection h3 with h3
  injection h3 with h3
  subst h3
  cases h4

end Verif.Rest
