import Verif.Api.TagModel
import Verif.Rest.ParseModel
/-!
# Model of the errors of an API, from their declaration to the answer over HTTP

Models `/repo/api/err.go` (`Error`, `StatusHTTP`, `Error.Error`, `Register`), with what `/repo/api/rest/host.go:550-601`
(`handle`) makes of them, without an authenticator, for errors that set no headers and no content type. Of
`/repo/xyz/tagged.go` it has `Tag`, `Get`, `String` for cases whose text has no verbs, and `Reflection`. The identity of a
case is the union it is of and its position: there is one table of the cases of a union.
-/
namespace Verif.Api.Answer
open Verif.Api

/-- A field of the declaration of an error type: its name, its tag, and whether it is of the error type itself, so that it
holds no error (xyz/tagged.go:429-471). -/
structure Case where
  name : Str
  tag : Str
  void : Bool

/-- The error types of a program (`Error[T]`, api/err.go:19-23). -/
abbrev Types := Nat → List Case

/-- A Go error. -/
inductive Err where
  /-- One of `errors.New`. -/
  | plain (text : Str)
  /-- `ErrNotImplemented` (api/err.go:13). -/
  | notImplemented
  /-- One that has `StatusHTTP`, such as `ErrAccessDenied` (api/err.go:113-119). -/
  | coded (text : Str) (status : Int)
  /-- One of `fmt.Errorf` with one `%w`. -/
  | wrap (before after : Str) (e : Err)
  /-- One of `errors.Join` of two errors. -/
  | join (a b : Err)
  /-- The zero value of an error type (api/err.go:40-42). -/
  | empty (type : Nat)
  /-- A case of an error type that holds no error (`xyz/tagged.go:674-678` of nil, or a case without a value). -/
  | bare (type pos : Nat)
  /-- A case of an error type that holds an error (xyz/tagged.go:674-678). -/
  | case (type pos : Nat) (held : Err)

/-- `String` of a case that holds no error (xyz/tagged.go:95-111): its text, its name, or what `fmt.Sprint` says of nil. -/
def bareText (unquote : Str → Option Str) (c : Case) : Str :=
  match Tag.lookup unquote ['t', 'x', 't'] c.tag with
  | some text => text
  | none => if c.void then c.name else ['<', 'n', 'i', 'l', '>']

/-- `Error()` (api/err.go:38-47, 115-117; `api/internal/http/http.go:20`). -/
def text (unquote : Str → Option Str) (types : Types) : Err → Str
  | .plain t => t
  | .notImplemented => ['n', 'o', 't', ' ', 'i', 'm', 'p', 'l', 'e', 'm', 'e', 'n', 't', 'e', 'd']
  | .coded t _ => t
  | .wrap before after e => before ++ text unquote types e ++ after
  | .join a b => text unquote types a ++ '\n' :: text unquote types b
  | .empty _ => ['e', 'm', 'p', 't', 'y', ' ', 'e', 'r', 'r', 'o', 'r']
  | .bare u i => match (types u)[i]? with
    | some c => bareText unquote c
    | none => []
  | .case _ _ held => text unquote types held

/-- `StatusHTTP` of a case, by its tag (api/err.go:26-36). -/
def tagStatus (unquote : Str → Option Str) (tag : Str) : Int :=
  match Tag.lookup unquote ['h', 't', 't', 'p'] tag with
  | none => 500
  | some status => (Rest.atoi status).getD 500

/-- `StatusHTTP` of an error that has that method (api/err.go:26-36, 119). -/
def statusHTTP (unquote : Str → Option Str) (types : Types) : Err → Option Int
  | .coded _ s => some s
  | .empty _ => some 500
  | .bare u i => some (match (types u)[i]? with
    | some c => tagStatus unquote c.tag
    | none => 500)
  | .case u i _ => some (match (types u)[i]? with
    | some c => tagStatus unquote c.tag
    | none => 500)
  | _ => none

/-- `errors.Is(err, ErrNotImplemented)` (api/rest/host.go:570). -/
def isNotImplemented : Err → Bool
  | .notImplemented => true
  | .wrap _ _ e => isNotImplemented e
  | .join a b => isNotImplemented a || isNotImplemented b
  | _ => false

/-- A scenario (api/err.go:97-103). `type` and `pos` are the case its test looks for (api/err.go:83-90). -/
structure Scenario where
  name : Str
  kind : Str
  text : Str
  tags : Str
  type : Nat
  pos : Nat
deriving DecidableEq

/-- The loop over the cases of a registered error type, from a position (api/err.go:73-92). -/
def casesFrom (unquote : Str → Option Str) (kind : Str) (type : Nat) : Nat → List Case → List Scenario
  | _, [] => []
  | i, c :: cs =>
    { name := c.name, kind := kind, text := Tag.docsOf unquote (.mk c.tag none), tags := c.tag, type := type, pos := i } ::
      casesFrom unquote kind type (i + 1) cs

/-- A field of the API that registers something: its name, whether it registers errors, and the error type if what it
registers is one (api/err.go:51-71). -/
structure Reg where
  field : Str
  errors : Bool
  type : Option Nat

/-- `addToStructure` for all fields of the API, in order (api/err.go:58-95, api/api.go:188-190). -/
def scenarios (unquote : Str → Option Str) (types : Types) : List Reg → List Scenario
  | [] => []
  | r :: rs =>
    (match r.errors, r.type with
      | true, some u => casesFrom unquote r.field u 0 (types u)
      | _, _ => []) ++ scenarios unquote types rs

/-- `Test` of a scenario: the error, and what `errors.Unwrap` gets from it (api/err.go:83-90, xyz/tagged.go:738-747). -/
def accepts (s : Scenario) : Err → Bool
  | .bare u i => u == s.type && i == s.pos
  | .case u i _ => u == s.type && i == s.pos
  | .wrap _ _ e => accepts s e
  | _ => false

/-- What `strconv.Atoi` returns besides its error, for a text that is a number: the number, or the nearest there is; 0 for
other texts (api/rest/host.go:590). -/
def atoiValue (s : Str) : Int :=
  let (neg, ds) := match s with
    | '-' :: ds => (true, ds)
    | '+' :: ds => (false, ds)
    | ds => (false, ds)
  if ds = [] then 0 else
  match Rest.digits? ds with
  | none => 0
  | some n => if neg then max (-(n : Int)) (-2 ^ 63) else min (n : Int) (2 ^ 63 - 1)

/-- The status and the message of an error by itself (api/rest/host.go:557-574). -/
def base (unquote : Str → Option Str) (types : Types) (err : Err) : Int × Str :=
  match statusHTTP unquote types err with
  | some s => (if s = 0 then 500 else s, text unquote types err)
  | none =>
    if isNotImplemented err then (501, ['n', 'o', 't', ' ', 'i', 'm', 'p', 'l', 'e', 'm', 'e', 'n', 't', 'e', 'd'])
    else (500, text unquote types err)

/-- `handle` up to `http.Error` (api/rest/host.go:550-601): the status and the message. -/
def handle (unquote : Str → Option Str) (types : Types) (regs : List Reg) (err : Err) : Int × Str :=
  match (scenarios unquote types regs).find? (fun s => accepts s err) with
  | none => base unquote types err
  | some s =>
    let code := atoiValue ((Tag.lookup unquote ['h', 't', 't', 'p'] s.tags).getD [])
    (if code ≠ 0 then code else (base unquote types err).1, if s.text ≠ [] then s.text else (base unquote types err).2)

/-- The answer (`http.Error`, api/rest/host.go:600; its `WriteHeader` panics for a status that is not of three digits). -/
def answer (unquote : Str → Option Str) (types : Types) (regs : List Reg) (err : Err) : Option (Int × Str) :=
  let r := handle unquote types regs err
  if r.1 < 100 ∨ 999 < r.1 then none else some r

end Verif.Api.Answer
