import Verif.Rest.HttpModel
/-!
# C32, C65: statuses and errors
-/
namespace Verif.Rest

/-- A success status of HTTP (RFC 9110, 15.3). -/
def Success (c : Nat) : Prop := 200 ≤ c ∧ c ≤ 299

/-- C32 in full: no error for a success status; for every other status an error that carries
the status. -/
def StatusClaim : Prop :=
  ∀ r : Resp, (Success r.code → responseError r = none) ∧
    (¬ Success r.code → ∃ e, responseError r = some e ∧ e.statusHTTP = some r.code)

private theorem statusCase_silent (c : Nat) :
    statusCase c = .silent ↔ c = 200 ∨ c = 201 ∨ c = 202 ∨ c = 500 := by
  constructor
  · intro h
    unfold statusCase at h
    split at h <;> first | (revert h; decide) | simp | (exfalso; revert h; simp)
  · rintro (rfl | rfl | rfl | rfl) <;> rfl

/-- No failure is taken for a success, and the only statuses without an error are 200, 201
and 202. -/
theorem no_error_iff (r : Resp) :
    responseError r = none ↔ r.code = 200 ∨ r.code = 201 ∨ r.code = 202 := by
  unfold responseError
  cases h : statusCase r.code with
  | silent =>
    simp only
    rcases (statusCase_silent _).mp h with h | h | h | h <;> simp [h]
    cases r.body <;> simp
  | says s =>
    simp only
    constructor
    · intro h2; cases hb : r.body <;> simp [hb] at h2
    · intro h2
      rw [(statusCase_silent _).mpr (by omega)] at h
      cases h
  | fixed s m =>
    simp only
    constructor
    · intro h2; cases h2
    · intro h2
      rw [(statusCase_silent _).mpr (by omega)] at h
      cases h

/-- What holds of C32: every status but 500 that is not 200, 201 or 202 gives an error that
carries it, if the body can be read. -/
theorem status_carried_partial (r : Resp) (b : Str) (hb : r.body = some b) (h0 : 0 < r.code)
    (h : r.code ≠ 200 ∧ r.code ≠ 201 ∧ r.code ≠ 202 ∧ r.code ≠ 500) :
    ∃ e, responseError r = some e ∧ e.statusHTTP = some r.code := by
  unfold responseError
  cases hc : statusCase r.code with
  | silent => exact absurd ((statusCase_silent _).mp hc) (by omega)
  | says s => rw [hb]; exact ⟨_, rfl, by simp only [CErr.statusHTTP]; rw [if_neg (by omega)]⟩
  | fixed s m => exact ⟨_, rfl, by simp only [CErr.statusHTTP]; rw [if_neg (by omega)]⟩

example : (0 : Nat) < 409 ∧ (409 : Nat) ≠ 500 ∧
    responseError ⟨409, "409 Conflict".toList, some " taken\n".toList⟩ =
      some (.response 409 "conflict".toList "taken".toList) := by decide

/-- C32 fails on both sides: 204 No Content is an error, and the error for a 500 does not
carry its status. -/
theorem status_fails : ¬ StatusClaim ∧
    (responseError ⟨204, "204 No Content".toList, some []⟩).isSome ∧
    (∀ s b, ∃ e, responseError ⟨500, s, some b⟩ = some e ∧ e.statusHTTP = none) := by
  refine ⟨?_, by decide, ?_⟩
  · intro h
    have := (h ⟨204, [], some []⟩).1 ⟨by decide, by decide⟩
    revert this
    decide
  · intro s b
    exact ⟨_, rfl, rfl⟩

/-! ## C65: from the implementation to the caller -/

/-- The error a caller gets when the implementation fails with `err`: `handle` on the server,
HTTP, `decodeError` on the client. The outer none is a panic of the server. -/
def travel (statusLine : Nat → Str) (redact : SErr → SErr) (scenarios : List Scen)
    (method : Str) (err : SErr) : Option (Option CErr) :=
  let out := handleErr redact scenarios err
  (httpError statusLine out.1 out.2).map (clientError method)

theorem dropWhile_nil {p : Char → Bool} {s : Str} (h : ∀ c ∈ s, p c = true) :
    s.dropWhile p = [] := by
  induction s with
  | nil => rfl
  | cons c s ih =>
    rw [List.dropWhile_cons, if_pos (h c (by simp))]
    exact ih (fun x hx => h x (by simp [hx]))

theorem dropWhile_trailing (s : Str) (p : Char → Bool) (x : Char) (hx : p x = true) :
    ((s ++ [x]).reverse.dropWhile p) = s.reverse.dropWhile p := by
  simp [hx]

/-- The newline `http.Error` adds is trimmed off again. -/
theorem trimSpace_newline (s : Str) : trimSpace (s ++ ['\n']) = trimSpace s := by
  have hn : isSpace '\n' = true := by decide
  unfold trimSpace
  by_cases h : ∀ c ∈ s, isSpace c = true
  · have h1 : s.dropWhile isSpace = [] := dropWhile_nil h
    have h2 : (s ++ ['\n']).dropWhile isSpace = [] := by
      apply dropWhile_nil
      intro c hc
      rcases List.mem_append.mp hc with hc | hc
      · exact h c hc
      · simp at hc; subst hc; exact hn
    rw [h1, h2]
  · have h1 : (s ++ ['\n']).dropWhile isSpace = s.dropWhile isSpace ++ ['\n'] := by
      induction s with
      | nil => exact absurd (by simp) h
      | cons c s ih =>
        simp only [List.cons_append, List.dropWhile_cons]
        split
        · next hc =>
          refine ih (fun h2 => h ?_)
          intro x hx
          rcases List.mem_cons.mp hx with rfl | hx
          · exact hc
          · exact h2 x hx
        · rfl
    rw [h1, dropWhile_trailing _ _ _ hn]

/-- C65 in full: an error with an HTTP status reaches the caller as an error with that status
and that text. -/
def TravelClaim (statusLine statusText : Nat → Str) : Prop :=
  ∀ (method : Str) (text : Str) (s : Nat), 400 ≤ s → s ≤ 599 → text = trimSpace text → text ≠ [] →
    ∃ e, travel statusLine id [] method ⟨text, some s, false⟩ = some (some e) ∧
      e.statusHTTP = some s ∧ e.text statusText = text

/-- What holds of C65: for every status from 300 to 999 but 304, 404, 500 and the five for
which the client has a text of its own, the caller gets an error with that status and the
(trimmed) text, whatever the method. A scenario that accepts the error replaces status and
text before they travel. -/
theorem error_travels_partial (statusLine : Nat → Str) (redact : SErr → SErr)
    (scenarios : List Scen) (method : Str) (err : SErr) (s : Nat) (m : Str)
    (hh : handleErr redact scenarios err = (s, m)) (h1 : 300 ≤ s) (h2 : s ≤ 999)
    (h3 : s ∉ [304, 404, 500, 411, 413, 414, 429, 431]) :
    ∃ subject, travel statusLine redact scenarios method err =
      some (some (.response s subject (trimSpace m))) := by
  have hl : s ≠ 304 ∧ s ≠ 404 ∧ s ≠ 500 ∧ s ≠ 411 ∧ s ≠ 413 ∧ s ≠ 414 ∧ s ≠ 429 ∧ s ≠ 431 := by
    simpa using h3
  unfold travel
  rw [hh]
  have e : httpError statusLine s m = some ⟨s, statusLine s, some (m ++ ['\n'])⟩ := by
    unfold httpError
    rw [if_neg (by omega)]
    simp only
    rw [if_neg (by omega), if_neg (by omega)]
  simp only [e, Option.map_some, clientError]
  rw [if_pos (by omega)]
  unfold decodeError
  rw [if_neg (by simp; omega)]
  unfold responseError
  cases hc : statusCase s with
  | silent => exact absurd ((statusCase_silent _).mp hc) (by omega)
  | says sub => exact ⟨sub, by simp [trimSpace_newline]⟩
  | fixed sub msg =>
    exfalso
    unfold statusCase at hc
    split at hc <;> first | (revert hc; simp; done) | omega

/-- What an implementation's own status becomes, when no scenario accepts the error. -/
theorem handle_status (scenarios : List Scen) (err : SErr) (s : Nat) (h0 : s ≠ 0)
    (hs : err.statusHTTP = some s) (hn : ∀ sc ∈ scenarios, sc.accepts err = false) :
    handleErr id scenarios err = (s, err.text) := by
  unfold handleErr
  have : scenarios.find? (fun sc => sc.accepts err) = none := by
    rw [List.find?_eq_none]; intro x hx; simp [hn x hx]
  simp [hs, this, h0]

/-- And the first scenario that accepts it takes precedence over the error's own status. -/
theorem handle_scenario (pre post : List Scen) (sc : Scen) (err : SErr)
    (hpre : ∀ x ∈ pre, x.accepts err = false) (hsc : sc.accepts err = true)
    (h0 : sc.http ≠ 0) (ht : sc.text ≠ []) :
    handleErr id (pre ++ sc :: post) err = (sc.http, sc.text) := by
  unfold handleErr
  have : (pre ++ sc :: post).find? (fun sc => sc.accepts err) = some sc := by
    rw [List.find?_append, List.find?_eq_none.mpr (by intro x hx; simp [hpre x hx])]
    simp [hsc]
  simp [this, h0, ht]

/-- A 409 with a text travels. -/
example (statusLine : Nat → Str) :
    ∃ subject, travel statusLine id [] "PUT".toList ⟨"taken".toList, some 409, false⟩ =
      some (some (.response 409 subject "taken".toList)) :=
  error_travels_partial statusLine id [] _ _ 409 _
    (handle_status [] _ 409 (by decide) rfl (by simp)) (by decide) (by decide) (by decide)

/-- C65 fails: a 404 arrives without its status and text, on DELETE it does not arrive at
all, a 500 loses its status, a 429 its text, and an error with a success status is no error. -/
theorem error_travels_fails (statusLine statusText : Nat → Str) :
    ¬ TravelClaim statusLine statusText ∧
    (∀ text, travel statusLine id [] "DELETE".toList ⟨text, some 404, false⟩ = some none) ∧
    (∀ text, travel statusLine id [] "GET".toList ⟨text, some 404, false⟩ = some (some .notFound)) ∧
    (∀ method text, ∃ e, travel statusLine id [] method ⟨text, some 500, false⟩ = some (some e) ∧
      e.statusHTTP = none) ∧
    (∀ method text, travel statusLine id [] method ⟨text, some 429, false⟩ =
      some (some (.response 429 "ratelimit".toList "please slow down".toList))) ∧
    (∀ method text s, 200 ≤ s → s ≤ 299 →
      travel statusLine id [] method ⟨text, some s, false⟩ = some none) := by
  refine ⟨?_, ?_, ?_, ?_, ?_, ?_⟩
  · intro h
    obtain ⟨e, h1, _⟩ := h "DELETE".toList "x".toList 404 (by decide) (by decide) (by decide) (by decide)
    have : travel statusLine id [] "DELETE".toList ⟨"x".toList, some 404, false⟩ = some none := rfl
    rw [this] at h1
    cases h1
  · intro _; rfl
  · intro _; rfl
  · intro method text
    exact ⟨_, rfl, rfl⟩
  · intro _ _; rfl
  · intro method text s h1 h2
    unfold travel
    rw [handle_status [] _ s (by omega) rfl (by simp)]
    unfold httpError
    simp only
    rw [if_neg (by omega)]
    simp only [Option.map_some]
    rw [if_neg (by omega : ¬ (s < 200 ∧ s ≠ 101))]
    simp only [clientError]
    rw [if_neg (by omega)]

end Verif.Rest
