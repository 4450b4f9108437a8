import Verif.Rest.ServeModel
/-!
# Model of the handler of an operation, from request to response

Models the handler made by `attach` (`/repo/api/rest/host.go:659-936`), `handle`
(host.go:550-601), reading the response in the client
(`/repo/api/rest/link.go:190-242,375-398`), the streaming of results (host.go:111-326), and which handlers `Handlers`
and `attach` register in which order (host.go:352-533,630-958, rest.go:245-431).

The authenticator, the implementation and the encodings are parameters. What they do is
recorded as events. A `ResponseWriter` of net/http is the headers as they are now, the status
and headers that were sent, and the body. The context is a value `C` the authenticator
returns; it is never cancelled. Not modelled: CORS headers (host.go:603-628), websockets, the
text of the documentation pages, and the sniffing of content types by net/http.
-/
namespace Verif.Rest.Serve

open Verif.Rest

variable {V C : Type}

/-- `http.Header` as far as it is used here: one value for each name, the last one set (`host.go:839-843`). -/
abbrev Hdr := List (Str × Str)

/-- `Header.Set` (`used at host.go:867, 913`). -/
def Hdr.put (h : Hdr) (k v : Str) : Hdr := h.filter (fun e => e.1 ≠ k) ++ [(k, v)]

/-- `Header.Get` (`used at host.go:678, 894`). -/
def Hdr.get (h : Hdr) (k : Str) : Str := ((h.find? (fun e => e.1 = k)).map Prod.snd).getD []

/-- `http.ResponseWriter` of net/http (`used throughout host.go:659-936`). -/
structure W where
  header : Hdr := []
  sent : Option (Nat × Hdr) := none
  body : Str := []
deriving DecidableEq

/-- `WriteHeader` of net/http: a status below 100 or above 999 panics (none), a second call is
ignored, and so is an informational status for what is sent in the end (`used at host.go:845, 849`). -/
def W.writeHeader (w : W) (code : Nat) : Option W :=
  match w.sent with
  | some _ => some w
  | none =>
    if code < 100 ∨ 999 < code then none
    else if code < 200 ∧ code ≠ 101 then some w
    else some { w with sent := some (code, w.header) }

/-- `Write` of net/http: sends status 200 if none was sent; a status that allows no body loses
the text (`used at host.go:874, 919, 924`). -/
def W.write (w : W) (s : Str) : W :=
  let sent := w.sent.getD (200, w.header)
  { w with sent := some sent
           body := if sent.1 = 204 ∨ sent.1 = 304 ∨ sent.1 = 101 then w.body else w.body ++ s }

/-- What the code asks of an error: what `handle` looks at (`SErr`), `WriteHeadersHTTP` as
the headers it sets (host.go:551), and the JSON of an error whose `ContentTypeHTTP` is
application/json (host.go:575-586). -/
structure PErr where
  base : SErr
  headers : Hdr := []
  json : Option Str := none
deriving DecidableEq

/-- `api.Auth` (`/repo/api/api.go:66-84`). -/
structure Auth (V C : Type) where
  authenticate : Request → C × Option PErr
  authorize : C → Request → Cells V → Option PErr
  redact : C → PErr → PErr

/-- What the handler asks of others (`the calls at host.go:672, 826, 832`). -/
inductive Event (V C : Type) where
  | authenticate
  | authorize (ctx : C) (args : Cells V)
  | call (ctx : C) (args : Cells V)

/-- The headers an error or a result sets (host.go:552,842). -/
def putAll (h : Hdr) (es : Hdr) : Hdr := es.foldl (fun h e => Hdr.put h e.1 e.2) h

/-- `http.Error` of net/http (host.go:600). -/
def W.error (w : W) (message : Str) (code : Nat) : Option W :=
  let h := w.header.filter (fun e => e.1 ≠ "Content-Length".toList)
  let h := Hdr.put (Hdr.put h "Content-Type".toList "text/plain; charset=utf-8".toList)
    "X-Content-Type-Options".toList "nosniff".toList
  (W.writeHeader { w with header := h } code).map fun w => W.write w (message ++ ['\n'])

/-- `handle` (host.go:550-601). -/
def handleW (redact : PErr → PErr) (scenarios : List Scen) (err : PErr) (w : W) : Option W :=
  let w := { w with header := putAll w.header err.headers }
  let err := redact err
  let status := match err.base.statusHTTP with
    | some s => if s = 0 then 500 else s
    | none => if err.base.notImplemented then 501 else 500
  match err.json with
  | some j =>
    (W.writeHeader { w with header := Hdr.put w.header "Content-Type".toList "application/json".toList }
      status).map fun w => W.write w (j ++ ['\n'])
  | none =>
    let (code, message) := handleErr id scenarios err.base
    w.error message code

/-- A result of the implementation: its value, whether its kind is struct, slice, map or array
(host.go:897-902), what `WriteHeadersHTTP` sets and what `StatusHTTP` says (host.go:841-846),
and, for an `io.Reader` and the like, its contents (host.go:864-893). -/
structure Result (V : Type) where
  value : Arg V
  composite : Bool := false
  headers : Hdr := []
  status : Option Nat := none
  reader : Option Str := none

/-- An encoder of a content type (mime.go:140-252); none is an error. -/
structure Encoder (V : Type) where
  one : Result V → Option Str
  named : List (Str × Result V) → Option Str

/-- The implementation: an error or results (`/repo/api/api.go:387-402`). -/
abbrev Impl (V C : Type) := C → Cells V → Except PErr (List (Result V))

/-- Custom headers and status of the results (host.go:837-847). -/
def writeResultHeaders : List (Result V) → W → Option W
  | [], w => some w
  | r :: rs, w =>
    let w := { w with header := putAll w.header r.headers }
    match r.status with
    | none => writeResultHeaders rs w
    | some s => (w.writeHeader s).bind fun w => writeResultHeaders rs w

/-- The Accept header when there is none, or any type will do (host.go:894-906). -/
def acceptFor (accept : Str) (rs : List (Result V)) : Str :=
  if accept = [] ∨ accept = "*/*".toList then
    match rs with
    | [r] => if r.composite then "application/json".toList else "text/plain".toList
    | _ => "application/json".toList
  else accept

/-- The content type chosen (host.go:907-913): the first in the list that has an encoder. -/
def chooseType (accept : Str) : Option Str :=
  ((split ',' accept).map mediaType).find? (fun c => decide (c ∈ contentTypes))

/-- `encoder.Encode` after the content type was set (host.go:913-927): the text is written at
once, with its length. -/
def writeEncoded (redact : PErr → PErr) (scenarios : List Scen) (encodeErr : PErr) (text : Option Str)
    (w : W) : Option W :=
  match text with
  | none => handleW redact scenarios encodeErr w
  | some t =>
    some (W.write { w with header := Hdr.put w.header "Content-Length".toList (Nat.toDigits 10 t.length) } t)

/-- The response for results that are not streams (host.go:848-936). `encodeErr` is the error
of an encoder that fails. -/
def writeResults (op : Op V) (encoder : Str → Encoder V) (redact : PErr → PErr)
    (scenarios : List Scen) (encodeErr : PErr) (accept : Str) (rs : List (Result V)) (w : W) :
    Option W :=
  if rs.isEmpty then w.writeHeader 204
  else match (match rs with | [r] => if op.ctype ≠ [] then r.reader else none | _ => none) with
    | some text => some (W.write { w with header := Hdr.put w.header "Content-Type".toList op.ctype } text)
    | none =>
      match chooseType (acceptFor accept rs) with
      | none =>
        let h := Hdr.put w.header "Accept-Encoding".toList
          "application/json, application/json+schema, application/xml, multipart/form-data, text/plain".toList
        W.error { w with header := h } "unsupported media type".toList 415
      | some ct =>
        let w := { w with header := Hdr.put w.header "Content-Type".toList ct }
        if op.resRules ≠ [] then
          writeEncoded redact scenarios encodeErr ((encoder ct).named (op.resRules.zip rs)) w
        else
          match rs with
          | r :: _ => writeEncoded redact scenarios encodeErr ((encoder ct).one r) w
          | [] => none

/-- `strings.Contains` (`used at host.go:678`). -/
def contains (s pat : Str) : Bool :=
  match s with
  | [] => pat = []
  | c :: rest => (dropPrefix pat (c :: rest)).isSome || contains rest pat

/-- Whether the request is answered with a page about the operation (host.go:678). -/
def wantsPage (op : Op V) (rq : Request) : Bool :=
  (op.ctype ≠ "text/html".toList && op.method = "GET".toList && contains rq.accept "text/html".toList) ||
    contains rq.accept "application/schema+json".toList

/-- The surroundings of an operation: the authenticator (none: nil), the context of the
request, the implementation, the scenarios of its errors, the encodings, the error of a failed
encoding, the error for arguments that cannot be read, the page about the operation
(the variables `attach` closes over, host.go:630-659). -/
structure Env (V C : Type) where
  auth : Option (Auth V C)
  ctx : C
  impl : Impl V C
  scenarios : List Scen
  std : Std
  codec : Str → Codec V
  encoder : Str → Encoder V
  encodeErr : PErr
  page : Request → W → W

/-- The error for arguments that cannot be read (host.go:703,758,795,805,811). -/
def argumentErr (message : Str) : PErr := ⟨⟨message, none, false⟩, [], none⟩

/-- `auth.Redact`, if there is an authenticator (host.go:554-556). -/
def Env.redact (env : Env V C) (ctx : C) : PErr → PErr :=
  match env.auth with
  | some a => a.redact ctx
  | none => id

/-- The response of a handler: it panicked, or what was written (`host.go:659-936`). -/
abbrev Answer (V C : Type) := List (Event V C) × Option W

/-- From the call on (host.go:832-936). -/
def serveCall (env : Env V C) (op : Op V) (rq : Request) (ctx : C) (args : Cells V) (w : W) :
    Answer V C :=
  ([.call ctx args],
    match env.impl ctx args with
    | .error e => handleW (env.redact ctx) env.scenarios e w
    | .ok rs => (writeResultHeaders rs w).bind fun w =>
        writeResults op env.encoder (env.redact ctx) env.scenarios env.encodeErr rq.accept rs w)

/-- Authorization and call (host.go:825-936). -/
def serveArgs (env : Env V C) (op : Op V) (rq : Request) (ctx : C) (args : Cells V) (w : W) :
    Answer V C :=
  match env.auth with
  | none => serveCall env op rq ctx args w
  | some a =>
    match a.authorize ctx rq args with
    | some e => ([.authorize ctx args], handleW (env.redact ctx) env.scenarios e w)
    | none =>
      let r := serveCall env op rq ctx args w
      (.authorize ctx args :: r.1, r.2)

/-- After authentication (host.go:678-936). -/
def serveKnown (env : Env V C) (op : Op V) (rq : Request) (ctx : C) (w : W) : Answer V C :=
  if wantsPage op rq then ([], some (env.page rq w))
  else match readArgs env.std env.codec op rq with
    | .panic => ([], none)
    | .fail m => ([], handleW (env.redact ctx) env.scenarios (argumentErr m) w)
    | .status c => ([], w.error "Unprocessable Entity".toList c)
    | .ok args => serveArgs env op rq ctx args w

/-- The handler of an operation (host.go:659-936), for results that are not streams. -/
def serveOp (env : Env V C) (op : Op V) (rq : Request) (w : W) : Answer V C :=
  match env.auth with
  | none => serveKnown env op rq env.ctx w
  | some a =>
    match a.authenticate rq with
    | (ctx, some e) => ([.authenticate], handleW (env.redact ctx) env.scenarios e w)
    | (ctx, none) =>
      let r := serveKnown env op rq ctx w
      (.authenticate :: r.1, r.2)

/-! ## The client reads the response -/

/-- A response as the client gets it from net/http: what was sent, or status 200 and the
headers at the end; without a Content-Type net/http looks at the body (`sniff` is
`http.DetectContentType`), unless it is empty (`link.go:353-376`). -/
def received (sniff : Str → Str) (w : W) : Nat × Str × Str :=
  let sent := w.sent.getD (200, w.header)
  let ct := sent.2.get "Content-Type".toList
  (sent.1, if ct = [] ∧ w.body ≠ [] then sniff w.body else ct, w.body)

/-- The results of a call for the caller: values, an error, or a panic of the client (`link.go:374-400`). -/
inductive Got (V : Type) where
  | values (vs : List (Arg V))
  | error
  | panic
deriving DecidableEq

/-- Reading one result after the other (link.go:236-240). -/
def readEach (codec : Codec V) : List (Shape V) → Str → Option (List (Arg V))
  | [], _ => some []
  | sh :: shs, s =>
    match codec.dec sh s with
    | none => none
    | some (a, rest) => (readEach codec shs rest).map (a :: ·)

/-- `clientRead` (link.go:190-242) for a function without a `mime` tag: a content type without
decoder is a nil function. -/
def clientRead (codec : Str → Codec V) (op : Op V) (ctype : Str) (shapes : List (Shape V))
    (body : Str) : Got V :=
  if shapes.isEmpty then .values []
  else if ctype ∉ contentTypes then .error
  else if ctype ∉ decodable then .panic
  else if op.resRules ≠ [] then
    match (codec ctype).decObj (op.resRules.zip shapes) body with
    | some vs => .values vs
    | none => .error
  else
    match readEach (codec ctype) shapes body with
    | some vs => .values vs
    | none => .error

/-- What a linked function returns for a response (link.go:375-398). -/
def clientResult (codec : Str → Codec V) (sniff : Str → Str) (op : Op V) (shapes : List (Shape V))
    (w : W) : Got V :=
  let (code, ct, body) := received sniff w
  if code < 200 ∨ 299 < code then .error
  else
    let c := mediaType ct
    let c := if c ≠ [] then c else if op.ctype ≠ [] then op.ctype else "application/json".toList
    clientRead codec op c shapes body

/-! ## The other handlers -/

/-- The method GET (host.go:646). -/
def mGet : Str := "GET".toList

/-- The method OPTIONS (host.go:656). -/
def mOptions : Str := "OPTIONS".toList

/-- The handlers that are registered (host.go:372-533,645-652,940-956): the documentation, an
example, an operation, the two kinds of OPTIONS, and the page about a resource. -/
inductive Handler where
  | docs
  | example
  | op (method path : Str)
  | optionsFor (path : Str)
  | options (path : Str)
  | form (path : Str)
deriving DecidableEq

/-- A resource: its path and the methods of its operations, in the order in which Go ranges
over the map (rest.go:180-186). -/
structure Resource where
  path : Str
  methods : List Str

/-- What `attach` registers for an operation (host.go:645-659): a GET also registers OPTIONS. -/
def attachOp (path m : Str) : List (Str × Str × Handler) :=
  (if m = mGet then [(mOptions, path, .optionsFor path)] else []) ++ [(m, path, .op m path)]

/-- What `attach` registers for a resource (host.go:630-958), in order. -/
def attachResource (r : Resource) : List (Str × Str × Handler) :=
  (r.methods.map (attachOp r.path)).flatten ++
    (if mOptions ∈ r.methods then [] else [(mOptions, r.path, .options r.path)]) ++
    (if mGet ∈ r.methods then [] else [(mGet, r.path, .form r.path)])

/-- Everything `Handlers` yields (host.go:352-533): the documentation, the examples if the
implementation has some, and the resources in the order in which Go ranges over the map. -/
def registrations (examples : Bool) (rs : List Resource) : List (Str × Str × Handler) :=
  [(mGet, "/".toList, .docs)] ++
    (if examples then [(mGet, "/examples/{name}".toList, .example)] else []) ++
    (rs.map attachResource).flatten

/-- What is registered last for a method and a path is in force (`what is made of the pairs host.go:640-956 yields`). -/
def inForce (regs : List (Str × Str × Handler)) (m p : Str) : Option Handler :=
  (regs.reverse.find? (fun r => r.1 = m ∧ r.2.1 = p)).map (fun r => r.2.2)

/-- Whether a handler starts with `auth.Authenticate` when there is an authenticator
(host.go:375,668 against 407-412,647-650,942-946,950-953). -/
def Handler.authenticates : Handler → Bool
  | .docs => true
  | .op _ _ => true
  | .example => false
  | .optionsFor _ => false
  | .options _ => false
  | .form _ => false

/-! ## Loading the operations -/

/-- A function with the method and the path of its tag (rest.go:296-357); `F` names it. -/
structure Tagged (F : Type) where
  method : Str
  path : Str
  fn : F

/-- `specification`: the functions by path and method, and the duplicates that were noted
(rest.go:237-243). -/
structure Loaded (F : Type) where
  ops : List ((Str × Str) × F) := []
  duplicates : List (Str × Str) := []

/-- `loadOperation` from the point where the tag is parsed (rest.go:350-430): the operation
replaces one of the same method and path, which is noted in `duplicates`. -/
def loadOperation {F : Type} (t : Tagged F) (s : Loaded F) : Loaded F :=
  { ops := s.ops.filter (fun e => e.1 ≠ (t.path, t.method)) ++ [((t.path, t.method), t.fn)]
    duplicates := if s.ops.any (fun e => e.1 = (t.path, t.method)) then
        s.duplicates ++ [(t.path, t.method)] else s.duplicates }

/-- `specificationOf` (rest.go:245-270): the functions in order; the duplicates are not asked
for. none would be an error. -/
def specificationOf {F : Type} (ts : List (Tagged F)) : Option (Loaded F) :=
  some (ts.foldl (fun s t => loadOperation t s) {})

/-- The part of a path for another router (host.go:357-367): `pf` and `rf` are `Sprintf` with
the format of parameters and of remainders. -/
def reformat (pf rf : Str → Str) (part : Str) : Str :=
  if part.head? = some '{' ∧ part.getLast? = some '}' then
    (if part.getLast? = some '*' then rf else pf) (part.drop 1).dropLast
  else part

/-- Whether the handler gives the headers of the request to an argument (host.go:714-731,
768-771,824-829): `ref` must be addressable, which the result of `Addr()` is not. `direct`: the
parameter is a whole argument; `pointer`: the argument's type is a pointer; `element`: it is an
element of a slice of several. -/
def headersRead (direct pointer element : Bool) : Bool :=
  if element then false else direct && pointer

/-! ## Streams -/

/-- A result that is a stream (host.go:863-883): the values a channel receives until it is
closed, or those an iterator yields. -/
inductive Stream (V : Type) where
  | chan (vs : List V)
  | seq (vs : List V)
  | seq2 (vs : List (Str × V))

/-- What is written for a stream, before it is encoded: a value, or an object (`host.go:158, 181, 191`). -/
inductive Item (V : Type) where
  | one (v : V)
  | object (fields : List (Str × V))
deriving DecidableEq

/-- `resultMap[key] = value` (host.go:175). -/
def mapPut (m : List (Str × V)) (k : Str) (v : V) : List (Str × V) :=
  if m.any (fun e => e.1 = k) then m.map (fun e => if e.1 = k then (k, v) else e) else m ++ [(k, v)]

/-- How a source of a stream ends: the items offered one after the other, and an error
(host.go:115-197). -/
structure Offered (V : Type) where
  items : List (Item V)
  err : Option Str := none

/-- `Iterate` (host.go:115-197): `sse` is the stream mode. -/
def iterate (method : Str) (sse : Bool) : Stream V → Offered V
  | .chan vs =>
    if method = "GET".toList then
      match vs with
      | [] => ⟨[], some "no content".toList⟩
      | v :: _ => ⟨[.one v], none⟩
    else if method = "POST".toList then
      match vs.getLast? with
      | none => ⟨[], some "no content".toList⟩
      | some v => ⟨[.one v], none⟩
    else ⟨[], some ("unsupported method: ".toList ++ method)⟩
  | .seq vs => ⟨vs.map .one, none⟩
  | .seq2 kvs =>
    if sse then ⟨kvs.map (fun kv => .object [kv]), none⟩
    else ⟨[.object (kvs.foldl (fun m kv => mapPut m kv.1 kv.2) [])], none⟩

/-- The writer of server-sent events, item by item (host.go:244-254,263-271): the first item
that cannot be encoded is answered with an error in the stream, and ends it. -/
def sseItems (enc : Item V → Option Str) (fail : W → Option W) : List (Item V) → W → Option W
  | [], w => some w
  | i :: is, w =>
    match enc i with
    | none => fail w
    | some d => sseItems enc fail is (w.write ("data: ".toList ++ d ++ ['\n', '\n']))

/-- How a stream is sent (host.go:311-323). -/
inductive Mode where
  | sse
  | json
  | websocket
deriving DecidableEq

/-- The mode of a stream, or a status (host.go:287-323). -/
def streamMode (method accept : Str) : Stream V → Except (Str × Nat) Mode
  | .chan _ =>
    if contains accept "application/json".toList ∧ method ≠ "GET".toList ∧ method ≠ "POST".toList then
      .error ("method not allowed for channel endpoints".toList, 405)
    else if contains accept "text/event-stream".toList then
      if method ≠ "GET".toList then .error ("method not allowed".toList, 405) else .ok .sse
    else if contains accept "application/json".toList then .ok .json
    else .ok .websocket
  | _ =>
    if contains accept "text/event-stream".toList then
      if method ≠ "GET".toList then .error ("method not allowed".toList, 405) else .ok .sse
    else .ok .json

/-- `SetupHeaders` (host.go:215-217,233-242). -/
def setupHeaders (w : W) : Mode → W
  | .sse =>
    let h := putAll w.header [("Content-Type".toList, "text/event-stream".toList),
      ("Cache-Control".toList, "no-cache".toList), ("Connection".toList, "keep-alive".toList),
      ("Access-Control-Allow-Origin".toList, "*".toList)]
    (W.writeHeader { w with header := h } 200).getD { w with header := h }
  | _ => { w with header := Hdr.put w.header "Content-Type".toList "application/json".toList }

/-- `handleStreamingResult` and `handleStreamingData` (host.go:260-326). `enc` encodes an item,
`encAll` the array of items; a websocket is not modelled and leaves the response alone. -/
def serveStream (fail : PErr → W → Option W) (enc : Item V → Option Str)
    (encAll : List (Item V) → Option Str) (encodeErr : PErr) (method accept : Str) (s : Stream V)
    (w : W) : Option W :=
  match streamMode method accept s with
  | .error (m, c) => w.error m c
  | .ok .websocket => some w
  | .ok mode =>
    let w := setupHeaders w mode
    let off := iterate method (contains accept "text/event-stream".toList) s
    match off.err with
    | some m => if m = "no content".toList then w.writeHeader 204 else fail (argumentErr m) w
    | none =>
      match mode with
      | .sse => sseItems enc (fail encodeErr) off.items w
      | _ =>
        if off.items.isEmpty then w.writeHeader 204
        else match encAll off.items with
          | none => fail encodeErr w
          | some t =>
            let h := Hdr.put w.header "Content-Length".toList (Nat.toDigits 10 t.length)
            some (W.write { w with header := h } t)

end Verif.Rest.Serve
