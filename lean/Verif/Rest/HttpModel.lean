import Verif.Rest.MuxModel
/-!
# Model of how errors travel over HTTP

Models `/repo/api/internal/http/http.go:13-204`, `handle` in `/repo/api/rest/host.go:550-601`
and `decodeError` with its caller in `/repo/api/rest/link.go:374-376,409-428`. Of the
standard library the model has `http.Error` (the message and a newline), the checks of
`ResponseWriter.WriteHeader`, and `strings.TrimSpace`; `http.StatusText` is a parameter.
Errors of the client's registered error types (link.go:410-416) are not modelled: the API is
assumed to register none.
-/
namespace Verif.Rest

/-- `*http.Response`: `StatusCode`, `Status`, and what reading the body gives (none: the read
fails) (`as read at http.go:77-200`). -/
structure Resp where
  code : Nat
  status : Str
  body : Option Str

/-- The errors a client can get: `*responseError` (http.go:47-53), a traced error with only a
text (`xray.New(errors.New(...))`), `ErrNotFound` (http.go:15). -/
inductive CErr where
  | response (code : Nat) (subject message : Str)
  | traced (text : Str)
  | notFound
deriving DecidableEq

/-- `StatusHTTP` where the error has that method (http.go:55-60). -/
def CErr.statusHTTP : CErr → Option Nat
  | .response c _ _ => some (if c = 0 then 500 else c)
  | .traced _ => none
  | .notFound => none

/-- `Error()` (http.go:20,62-67). -/
def CErr.text (statusText : Nat → Str) : CErr → Str
  | .response c _ m => if m = [] then statusText c else m
  | .traced t => t
  | .notFound => "not found".toList

/-- What the switch over the status does (http.go:77-178). -/
inductive Case where
  /-- leave `subject` empty -/
  | silent
  /-- set `subject` -/
  | says (subject : Str)
  /-- return at once, without reading the body -/
  | fixed (subject message : Str)
deriving DecidableEq

/-- The switch over the status (http.go:77-178), in its order. -/
def statusCase (c : Nat) : Case :=
  match c with
  | 200 => .silent | 201 => .silent | 202 => .silent
  | 400 => .says "request".toList
  | 401 => .says "access denied".toList
  | 403 => .says "access denied".toList
  | 407 => .says "access denied".toList
  | 511 => .says "access denied".toList
  | 402 => .says "wallet".toList
  | 404 => .says "missing".toList
  | 410 => .says "missing".toList
  | 405 => .says "method".toList
  | 406 => .says "user-agent".toList
  | 408 => .says "timeout".toList
  | 504 => .says "timeout".toList
  | 409 => .says "conflict".toList
  | 411 => .fixed "content-length".toList "please provide a Content-Length header".toList
  | 412 => .says "precondition".toList
  | 428 => .says "precondition".toList
  | 413 => .fixed "content-length".toList "please provide a smaller payload".toList
  | 414 => .fixed "uri".toList "please provide a smaller uri".toList
  | 415 => .says "mediatype".toList
  | 416 => .says "range".toList
  | 417 => .says "expectation".toList
  | 418 => .says "teapot".toList
  | 421 => .says "misdirection".toList
  | 422 => .says "unprocessable".toList
  | 423 => .says "lock".toList
  | 424 => .says "dependency".toList
  | 425 => .says "early".toList
  | 426 => .says "upgrade".toList
  | 429 => .fixed "ratelimit".toList "please slow down".toList
  | 431 => .fixed "header".toList "please reduce the size of your header fields".toList
  | 451 => .says "legal".toList
  | 500 => .silent
  | 501 => .says "todo".toList
  | 502 => .says "gateway".toList
  | 503 => .says "unavailable".toList
  | 505 => .says "http".toList
  | 506 => .says "http".toList
  | 507 => .says "storage".toList
  | 508 => .says "infinite loop".toList
  | 510 => .says "request".toList
  | _ => .says "unexpected".toList

/-- `unicode.IsSpace`, which `strings.TrimSpace` asks (`http.go:185`). -/
def isSpace (c : Char) : Bool :=
  let n := c.toNat
  (9 ≤ n && n ≤ 13) || n == 32 || n == 0x85 || n == 0xA0 || n == 0x1680 ||
    (0x2000 ≤ n && n ≤ 0x200a) || n == 0x2028 || n == 0x2029 || n == 0x202f || n == 0x205f ||
    n == 0x3000

/-- `strings.TrimSpace` (http.go:185). -/
def trimSpace (s : Str) : Str :=
  ((s.dropWhile isSpace).reverse.dropWhile isSpace).reverse

/-- `ResponseError` (http.go:74-204). -/
def responseError (r : Resp) : Option CErr :=
  match statusCase r.code with
  | .fixed subject message => some (.response r.code subject message)
  | .says subject =>
    match r.body with
    | none => some (.traced ("unexpected status (failed read): ".toList ++ r.status))
    | some b => some (.response r.code subject (trimSpace b))
  | .silent =>
    if r.code < 200 ∨ 299 < r.code then
      match r.body with
      | none => some (.traced ("unexpected status (failed read): ".toList ++ r.status))
      | some b => some (.traced ("unexpected status : ".toList ++ r.status ++ ' ' :: b))
    else none

/-- `decodeError` for an API that registers no error types (link.go:417-427). -/
def decodeError (method : Str) (r : Resp) : Option CErr :=
  if r.code = 404 then
    if method = "DELETE".toList then none else some .notFound
  else
    match responseError r with
    | some e => some e
    | none => some (.traced ("unexpected status : ".toList ++ r.status))

/-- What the caller of a linked function is told (link.go:374-376): no error for a success
status, the decoded error otherwise. -/
def clientError (method : Str) (r : Resp) : Option CErr :=
  if r.code < 200 ∨ 299 < r.code then decodeError method r else none

/-- What `handle` looks at in the error of an implementation: its text, `StatusHTTP` if it
has that method, and whether it is `ErrNotImplemented` (`host.go:561-574`). -/
structure SErr where
  text : Str
  statusHTTP : Option Nat
  notImplemented : Bool
deriving DecidableEq

/-- A registered scenario as `handle` uses it: whether its test accepts the error, the number
in its `http` tag (0 if there is none), its text (host.go:588-599). -/
structure Scen where
  accepts : SErr → Bool
  http : Nat
  text : Str

/-- `handle` up to the call of `http.Error` (host.go:550-600), for an error without
`ContentTypeHTTP`: the status and the message. `redact` is the authenticator's `Redact`
(host.go:554-556), the identity if there is no authenticator. -/
def handleErr (redact : SErr → SErr) (scenarios : List Scen) (err : SErr) : Nat × Str :=
  let err := redact err
  let base : Nat × Str :=
    match err.statusHTTP with
    | some s => (if s = 0 then 500 else s, err.text)
    | none => if err.notImplemented then (501, "not implemented".toList) else (500, err.text)
  match scenarios.find? (fun s => s.accepts err) with
  | some sc => (if sc.http ≠ 0 then sc.http else base.1,
                if sc.text ≠ [] then sc.text else base.2)
  | none => base

/-- `http.Error` through a `ResponseWriter` of net/http: a status below 100 or above 999
panics (none), an informational one is followed by 200, and a status that allows no body
loses it; otherwise the body is the message and a newline (`host.go:600`). -/
def httpError (statusLine : Nat → Str) (status : Nat) (message : Str) : Option Resp :=
  if status < 100 ∨ 999 < status then none
  else
    let code := if status < 200 ∧ status ≠ 101 then 200 else status
    some { code, status := statusLine code,
           body := some (if code = 204 ∨ code = 304 ∨ code = 101 then [] else message ++ ['\n']) }

end Verif.Rest
