import Verif.Rest.MuxModel
/-!
# Model of the reading of `rest` tags

Models `/repo/api/internal/rtags/rtags.go`. A result of `none` is a Go panic (an index or
slice out of range). `Decode` (lines 19-29), which nothing calls, and the three unused
regular expressions (lines 9-13) are not modelled.
-/
namespace Verif.Rest

/-- The methods `MethodOf` knows (rtags.go:39). -/
def knownMethods : List Str :=
  ["PUT", "POST", "DELETE", "HEAD", "OPTIONS", "PATCH", "CONNECT"].map String.toList

/-- `MethodOf` (rtags.go:30-42). -/
def methodOf (t : Str) : Str :=
  if t = [] then "GET".toList else
  match split ' ' t with
  | m :: _ => if m ∈ knownMethods then m else "GET".toList
  | [] => "GET".toList

/-- `PathOf` (rtags.go:45-51). -/
def pathOf (t : Str) : Str :=
  match split ' ' t with
  | _ :: p :: _ => p
  | _ => []

/-- `ResultRulesOf` (rtags.go:54-72). The nil slice and the absence of rules are the empty
list; an empty third field panics at `splits[2][0]`. -/
def resultRulesOf (t : Str) : Option (List Str) :=
  match split ' ' t with
  | _ :: _ :: third :: more =>
    match third with
    | [] => none
    | c :: _ =>
      if c = '(' then
        match more with
        | rules :: _ => some (split ',' rules)
        | [] => some []
      else some (split ',' third)
  | _ => some []

/-- `ArgumentRulesOf` (rtags.go:75-88): the first and the last byte are cut off unseen; a
lone `(` panics at `rules[1:0]`. -/
def argumentRulesOf (t : Str) : Option (List Str) :=
  match split ' ' t with
  | _ :: _ :: third :: _ =>
    match third with
    | [] => none
    | c :: rest =>
      if c = '(' then
        if rest = [] then none else some (split ',' rest.dropLast)
      else some []
  | _ => some []

/-- What `=[^}]+\}` (rtags.go:16) consumes after an equals sign: at least one byte that is
not a brace, then a brace. The remainder, or none if it does not match. -/
def afterFormat : Str → Option Str
  | [] => none
  | '}' :: s => some s
  | _ :: s => afterFormat s

theorem afterFormat_lt {s r : Str} (h : afterFormat s = some r) : r.length < s.length := by
  induction s with
  | nil => simp [afterFormat] at h
  | cons c s ih =>
    unfold afterFormat at h
    split at h
    · cases h
    · next heq => simp at heq h; rw [heq.2, h]; simp
    · next heq => simp at heq; have := ih (by rw [heq.2]; exact h); simp; omega

/-- `CleanupPattern` (rtags.go:91-93): the leftmost match is replaced by a brace and the
search goes on behind it. -/
def cleanupPattern : Str → Str
  | [] => []
  | c :: s =>
    if c = '=' ∧ s.head? ≠ some '}' then
      match h : afterFormat s with
      | some r => '}' :: cleanupPattern r
      | none => c :: cleanupPattern s
    else c :: cleanupPattern s
  termination_by s => s.length
  decreasing_by
    · have := afterFormat_lt h; simp; omega
    · simp
    · simp

/-- `strings.ReplaceAll(path, "=%v", "")` (rest.go:336). -/
def dropPlain : Str → Str
  | '=' :: '%' :: 'v' :: s => dropPlain s
  | c :: s => c :: dropPlain s
  | [] => []

/-- What `loadOperation` makes of the path of a tag before it is registered
(rest.go:334,336,350): the part before the question mark, without formats. -/
def routePath (path : Str) : Str := cleanupPattern (dropPlain (cut '?' path).1)

end Verif.Rest
