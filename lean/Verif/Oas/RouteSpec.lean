import Verif.Oas.RouteModel
import Verif.Rest.TagsSpec

/-!
# The operations of a document: specification
-/
namespace Verif.Oas.Spec
open Verif.Rest Verif.Rest.Spec

/-- The methods OpenAPI knows. -/
def methods : List String := ["GET", "PUT", "POST", "DELETE", "OPTIONS", "HEAD", "PATCH", "TRACE"]

/-- How method and content type are written: `GET`, `GET(text/plain)`. -/
def methodText (m : List Char) : Option (List Char) → List Char
  | none => m
  | some mime => m ++ '(' :: mime ++ [')']

/-- How path and query are written. -/
def pathQuery (ts : List TagSeg) : Option (List Char) → List Char
  | none => pathText (ts.map TagSeg.text)
  | some q => pathText (ts.map TagSeg.text) ++ '?' :: q

/-- The function has a `rest` tag for this method and these segments of a path. -/
def TaggedWith (f : Fn) (m : List Char) (ts : List TagSeg) : Prop :=
  ∃ (mime query : Option (List Char)) (args results : Option (List (List Char))),
    (∃ k ∈ methods, k.toList = m) ∧ (∀ t ∈ ts, t.Clean) ∧
    (Tag.mk (methodText m mime) (pathQuery ts query) args results).Clean ∧
    f.rest = (Tag.mk (methodText m mime) (pathQuery ts query) args results).text

/-- The function belongs at the route: the path with the formats of parameters left out. -/
def At (f : Fn) (r : Route) : Prop :=
  ∃ ts, TaggedWith f r.1 ts ∧ r.2 = pathText (ts.map fun t => t.seg.text)

/-- The function has no tag. -/
def Untagged (f : Fn) : Prop := f.http = [] ∧ (f.rest = [] ∨ f.rest = ['-'])

/-- The document of an API lists a function at a route if and only if the server has it there and it is not
hidden, in whatever orders they visit the functions. -/
def ListsServed (fs : List Fn) : Prop :=
  ∀ gs hs, gs.Perm fs → hs.Perm fs → ∀ S, served gs = some S →
    ∃ D, listed hs = some D ∧ ∀ r f, D r = some f ↔ S r = some f ∧ f.hidden = false

end Verif.Oas.Spec
