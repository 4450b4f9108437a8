import Verif.Api.StructModel
/-!
# Model of documentation and of registered errors (api/api.go:452-482, api/err.go:51-95)

`DocumentationOf` is modelled for tags with a newline, which hold their documentation after it; where documentation comes
from for other tags (`docs` tags, `Docs` methods, embedded structs) is modelled in `TagModel`.
-/
namespace Verif.Api

/-- `strings.HasPrefix` (for `replaceFrom`, `api/api.go:462`). -/
def isPrefix : Str → Str → Bool
  | [], _ => true
  | _ :: _, [] => false
  | p :: ps, c :: cs => p = c && isPrefix ps cs

/-- `strings.ReplaceAll(s, pat, rep)` for a pattern that is not empty: the occurrences from left to right; `skip` is how much
of the last one is still to be passed over (`api/api.go:462`). -/
def replaceFrom (pat rep : Str) : Nat → Str → Str
  | _, [] => []
  | skip + 1, _ :: s => replaceFrom pat rep skip s
  | 0, c :: s => if isPrefix pat (c :: s) then rep ++ replaceFrom pat rep (pat.length - 1) s
      else c :: replaceFrom pat rep 0 s

/-- `strings.SplitN(s, "\n", 2)`: what is after the first newline, if there is one (api.go:456). -/
def afterNewline : Str → Option Str
  | [] => none
  | c :: s => if c = '\n' then some s else afterNewline s

/-- The number of tabs a string begins with (api.go:458-464). -/
def tabs : Str → Nat
  | [] => 0
  | c :: s => if c = '\t' then tabs s + 1 else 0

/-- `DocumentationOf` for a tag with a newline (api.go:455-467). -/
def documentationOf (tag : Str) : Option Str :=
  (afterNewline tag).map fun text =>
    (replaceFrom ('\n' :: List.replicate (tabs text) '\t') ['\n'] 0 ('\n' :: text)).drop 1

mutual
/-- An error, by how it can be unwrapped. `case` says which case of a registered error type it is, if it is one
(`api/err.go:83-89`). -/
inductive Err where
  /-- An error without an `Unwrap` method. -/
  | leaf (case : Option Nat)
  /-- An error with `Unwrap() error`, such as one of `fmt.Errorf` with one `%w`. -/
  | wrap (case : Option Nat) (e : Err)
  /-- An error with `Unwrap() []error`, such as one of `errors.Join`. -/
  | join (case : Option Nat) (es : Errs)
/-- Errors (`errors.Join` and the like, which `api/err.go:84` does not look into). -/
inductive Errs where
  | nil
  | cons (e : Err) (rest : Errs)
end

/-- `Test` of the scenario of a case (err.go:83-90, xyz/tagged.go:738-747): the error and those that `errors.Unwrap` gets
from it. -/
def scenarioTest (c : Nat) : Err → Bool
  | .leaf k => k == some c
  | .wrap k e => k == some c || scenarioTest c e
  | .join k _ => k == some c

end Verif.Api
