/-!
# What the REST router should do

Route patterns and requests as lists of segments, independent of the router's tree: a
pattern matches a request segment by segment, and at the first position where two
patterns differ a literal is preferred over a parameter.
-/
namespace Verif.Rest.Spec

/-- One segment of a pattern: `users` or `{id}`. -/
inductive Seg where
  | lit (s : List Char)
  | par (name : List Char)
deriving DecidableEq, Repr

/-- A registration: `Handle("GET /users/{id}", h)`. -/
structure Route (H : Type) where
  method : List Char
  segs : List Seg
  handler : H
deriving Repr

/-- How a segment is written in a pattern. -/
def Seg.text : Seg → List Char
  | .lit s => s
  | .par n => '{' :: n ++ ['}']

/-- `/a/b/c`. -/
def pathText : List (List Char) → List Char
  | [] => []
  | s :: ss => '/' :: s ++ pathText ss

/-- How a route is written: `METHOD /seg/seg`, and `METHOD /` for the root. -/
def Route.pattern {H : Type} (r : Route H) : List Char :=
  r.method ++ ' ' :: (if r.segs = [] then ['/'] else pathText (r.segs.map Seg.text))

/-- How the path of a request is written. -/
def requestPath (segs : List (List Char)) : List Char :=
  if segs = [] then ['/'] else pathText segs

/-- A pattern segment matches a request segment. -/
inductive SegMatches : Seg → List Char → Prop
  | lit (s) : SegMatches (.lit s) s
  | par (n s) : SegMatches (.par n) s

/-- A pattern matches a request segment by segment. -/
inductive Matches : List Seg → List (List Char) → Prop
  | nil : Matches [] []
  | cons {p s ps ss} : SegMatches p s → Matches ps ss → Matches (p :: ps) (s :: ss)

/-- Patterns that differ at most in the names of their parameters. -/
def shape (s : List Seg) : List (Option (List Char)) :=
  s.map fun | .lit s => some s | .par _ => none

/-- Among the registered routes, no literal competes with a parameter of `p` on the way
of this request: wherever `p` has a parameter, no route that agrees with `p` before that
position has the request's own segment as a literal there. -/
def Preferred {H : Type} (rs : List (Route H)) (p : List Seg) (segs : List (List Char)) : Prop :=
  ∀ i name v, p[i]? = some (.par name) → segs[i]? = some v →
    ∀ r ∈ rs, shape (r.segs.take i) = shape (p.take i) → r.segs[i]? ≠ some (.lit v)

/-- The registration of `r` is in force: no later one has the same method and the same
shape. -/
def Current {H : Type} (rs : List (Route H)) (r : Route H) : Prop :=
  ∃ before after, rs = before ++ r :: after ∧
    ∀ r' ∈ after, shape r'.segs = shape r.segs → r'.method ≠ r.method

/-- A segment a request can have: not empty, without a slash. -/
def CleanSeg (s : List Char) : Prop := s ≠ [] ∧ '/' ∉ s

/-- A pattern segment that is read back as what it was written for. -/
def CleanPat : Seg → Prop
  | .lit s => CleanSeg s ∧ ¬ (2 < s.length ∧ s.head? = some '{' ∧ s.getLast? = some '}')
  | .par n => CleanSeg n

/-- A table whose patterns are clean and none of whose literals is the name of a method
that is registered. -/
structure CleanTable {H : Type} (rs : List (Route H)) : Prop where
  segs : ∀ r ∈ rs, ∀ s ∈ r.segs, CleanPat s
  method : ∀ r ∈ rs, r.method ≠ [] ∧ ' ' ∉ r.method
  apart : ∀ r ∈ rs, ∀ r' ∈ rs, ∀ l, Seg.lit l ∈ r.segs → l ≠ r'.method

end Verif.Rest.Spec
