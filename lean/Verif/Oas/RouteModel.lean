import Verif.Rest.TagsModel

/-!
# The operations of a document: model

Which functions of an API the server serves and where (`load`, `loadOperation`, `api/rest/rest.go:258-431`), and
which ones the document lists and where (`oasDocumentOf`, `addNamespaceTo`, `addFunctionTo`,
`api/rest/docs.go:105-201`).

Left out: parameters, bodies and results (both sides read them with the same parser); what they report about
them.
-/
namespace Verif.Oas
open Verif.Rest

/-- A function of an API: its `rest` and `http` tags, and whether it, or a namespace it is in, is tagged `-` for
`swagger`, `docs` or `openapi` (`rest.go:300`, `docs.go:149-158`). -/
structure Fn where
  name : Str
  rest : Str
  http : Str
  hidden : Bool
  deriving DecidableEq

/-- A method and a path (`rest.go:311`, `:350`, `docs.go:170-174`). -/
abbrev Route := Str × Str

/-- `rest.go:311-322`: the method in front of the content type; `none` is an error. -/
def servedMethod (m : Str) : Option Str :=
  if m = [] then none
  else if '(' ∈ m then
    if m.getLast? = some ')' then some (cut '(' m.dropLast).1 else none
  else some m

/-- `loadOperation` (`rest.go:299-431`): where a function is served; `none` is an error, `some none` is nowhere. -/
def servedAt (f : Fn) : Option (Option Route) :=
  if f.rest = ['-'] ∨ f.rest = [] then some none
  else
    match split ' ' f.rest with
    | m :: p :: _ =>
      match servedMethod m with
      | some m => some (some (m, routePath p))
      | none => none
    | _ => none

/-- The methods of a document's path (`docs.go:176-194`). -/
def docMethods : List Str :=
  [['G', 'E', 'T'], ['P', 'U', 'T'], ['P', 'O', 'S', 'T'], ['D', 'E', 'L', 'E', 'T', 'E'],
   ['O', 'P', 'T', 'I', 'O', 'N', 'S'], ['H', 'E', 'A', 'D'], ['P', 'A', 'T', 'C', 'H'], ['T', 'R', 'A', 'C', 'E']]

/-- `docs.go:149-152`. -/
def docTag (f : Fn) : Str := if f.rest = [] then f.http else f.rest

/-- `addFunctionTo` (`docs.go:148-201`): where a function is listed. -/
def listedAt (f : Fn) : Option (Option Route) :=
  if docTag f = [] ∨ docTag f = ['-'] then some none
  else if f.hidden then some none
  else
    match cut ' ' (docTag f) with
    | (_, _, false) => none
    | (m, p, true) =>
      if (cut '(' m).1 ∈ docMethods then
        some (some ((cut '(' m).1, cleanupPattern (cut '?' (cut ' ' p).1).1))
      else none

/-- Functions by route; a later one replaces an earlier one
(`spec.Resources`, `rest.go:351`; `spec.Paths`, `docs.go:199`). -/
def collect (at_ : Fn → Option (Option Route)) : List Fn → (Route → Option Fn) → Option (Route → Option Fn)
  | [], acc => some acc
  | f :: fs, acc =>
    match at_ f with
    | none => none
    | some none => collect at_ fs acc
    | some (some r) => collect at_ fs (fun r' => if r' = r then some f else acc r')

/-- `load` (`rest.go:258-270`): the functions in the order they are visited, which for those of namespaces is any
(a Go map). -/
def served (fs : List Fn) : Option (Route → Option Fn) := collect servedAt fs fun _ => none

/-- `oasDocumentOf` (`docs.go:105-146`): the same, in an order of its own. -/
def listed (fs : List Fn) : Option (Route → Option Fn) := collect listedAt fs fun _ => none

end Verif.Oas
