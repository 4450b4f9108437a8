/-!
# Serving through Deno: model

`jsReadableStream.Read` and the handler of `Deno.serve` (`api/rest/host_js.go:19-133`). What JavaScript does is taken from
the Fetch and Streams standards: a reader gives chunks, and once the stream is done or has failed it stays so; `Headers`
has every name once, in lower case, and `new Response(body, {status})` throws unless the status is from 200 to 599 and
is none of those without a body (there is always a body here, a `Uint8Array`).
-/
namespace Verif.Rest.Deno

abbrev Byte := BitVec 8

/-- What a reader of a `ReadableStream` has yet to give: chunks, and how it ends (`host_js.go:33`, `:116-122`). -/
structure Source where
  chunks : List (List Byte)
  fails : Bool
  deriving DecidableEq, Repr

/-- `jsReadableStream` (`host_js.go:96-99`). -/
structure Stream where
  body : Source
  data : List Byte
  deriving DecidableEq, Repr

/-- How a `Read` ends (`host_js.go:101-128`): with bytes and no error, at the end, or with the reader's error. -/
inductive Res
  | bytes (bs : List Byte)
  | eof
  | error
  deriving DecidableEq, Repr

/-- `js.CopyBytesToGo` (`host_js.go:120`, `:126`) into a slice of that length. -/
def copyBytes (len : Nat) (src : List Byte) : List Byte := src.take len

/-- `Read` with a buffer of that length (`host_js.go:101-128`). A body that is not defined (`:107-109`) does not occur, since
it is what `getReader` returns. -/
def read (s : Stream) (len : Nat) : Stream × Res :=
  if 0 < s.data.length then
    let n := min len s.data.length
    ({ s with data := s.data.drop n }, .bytes (s.data.take n))
  else
    match s.body.chunks with
    | [] => if s.body.fails then (s, .error) else (s, .eof)
    | chunk :: rest =>
      let got := copyBytes len chunk
      let data :=
        if got.length < chunk.length then copyBytes (max 0 chunk.length) (chunk.drop got.length) else s.data
      ({ body := { s.body with chunks := rest }, data := data }, .bytes got)

/-- Reads with buffers of these lengths, in order (`host_js.go:101-128`). -/
def reads (s : Stream) : List Nat → Stream × List Res
  | [] => (s, [])
  | n :: ns =>
    let (s, r) := read s n
    let (s, rs) := reads s ns
    (s, r :: rs)

/-- A stream as the handler makes it (`host_js.go:33`). -/
def opened (src : Source) : Stream := ⟨src, []⟩

/-! ## Requests and responses -/

/-- A fetch request (`host_js.go:27-50`): names of headers are unique and in lower case. -/
structure Fetch where
  method : String
  url : String
  headers : List (String × String)
  body : Option Source
  deriving Repr

/-- What the Go handler is given (`host_js.go:39-47`); the header is a map from canonical names to lists of values. -/
structure Req where
  method : String
  url : String
  header : List (String × List String)
  remote : String
  body : Option Stream
  deriving Repr

/-- `Header.Set` (`host_js.go:44`) after the name was made canonical: the other values of the name are gone. -/
def setHeader (h : List (String × List String)) (k v : String) : List (String × List String) :=
  h.filter (fun p => p.1 ≠ k) ++ [(k, [v])]

/-- The request (`host_js.go:39-47`), `canon` being `CanonicalHeaderKey`. The address is the property of that name of a
`Headers` object, which has none, so that it is the text of `undefined` (`:47`). -/
def request (canon : String → String) (f : Fetch) : Req where
  method := f.method
  url := f.url
  header := f.headers.foldl (fun h p => setHeader h (canon p.1) p.2) []
  remote := "<undefined>"
  body := f.body.map opened

/-- What the handler wrote: `httptest.ResponseRecorder` (`host_js.go:30`, `:48`). -/
structure Recorded where
  code : Nat
  header : List (String × List String)
  body : List Byte
  deriving DecidableEq, Repr

/-- A `Response` that Deno sends. -/
structure Response where
  status : Nat
  header : List (String × List String)
  body : List Byte
  deriving DecidableEq, Repr

/-- The statuses that have no body, in the Fetch standard (`host_js.go:51`). -/
def nullBody : List Nat := [101, 103, 204, 205, 304]

/-- `new Response(body, init)` with a body that is not null (`host_js.go:51-53`): none is an exception, which `js.Value.New`
turns into a panic of the goroutine, and there is nothing to recover it. -/
def newResponse (status : Nat) (header : List (String × List String)) (body : List Byte) : Option Response :=
  if 200 ≤ status ∧ status ≤ 599 ∧ status ∉ nullBody then some ⟨status, header, body⟩ else none

/-- The end of the handler (`host_js.go:49-53`): none is the end of the process. Headers are not passed. -/
def respond (r : Recorded) : Option Response := newResponse r.code [] r.body

/-- One request (`host_js.go:26-57`). -/
def serve (canon : String → String) (handler : Req → Recorded) (f : Fetch) : Option Response :=
  respond (handler (request canon f))

end Verif.Rest.Deno
