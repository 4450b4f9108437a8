/-!
# Model: HTTP clients that add headers

`Header` and `addHeaderToRequest` (`api/rest/link.go:30-54`), `ClientWithHeader` and `ClientWithHeaders`
(`api/internal/http/auth.go:13-35`). Names of headers are in canonical form (`http.CanonicalHeaderKey`), which
`Header.Set` and `Header.Del` give them.
-/
namespace Verif.Rest.Header

/-- `http.Header`: the values under a name, if there are any (`link.go:47-48`). -/
abbrev Hdr (N V : Type) := N → Option (List V)

variable {N V H : Type} [DecidableEq N]

/-- `Header.Set` (`link.go:47`, `auth.go:18`, `:30`). -/
def Hdr.set (h : Hdr N V) (n : N) (v : V) : Hdr N V := fun m => if m = n then some [v] else h m

/-- `Header.Del` (`link.go:48`, `auth.go:19`, `:31`). -/
def Hdr.del (h : Hdr N V) (n : N) : Hdr N V := fun m => if m = n then none else h m

/-- `RoundTrip` (`link.go:46-54`, `auth.go:17-23`, `:29-33`): what the transport is given, and the caller's headers
afterwards. `added` is the headers to add, in the order of the iteration; those deferred run last to first. -/
def roundTrip (added : List (N × V)) (h : Hdr N V) : Hdr N V × Hdr N V :=
  let sent := added.foldl (fun h p => h.set p.1 p.2) h
  (sent, added.reverse.foldl (fun h p => h.del p.1) sent)

/-- A request: whom it is sent to and with what headers. -/
structure Sent (N V H : Type) where
  host : H
  headers : Hdr N V

/-- `http.Client.Do` of Go's library with this transport (`link.go:33-38`): the request and, for every redirect the
servers answer with, another one, whose headers are a copy of those of the first, taken before it was sent, without
the ones `drop` says (Go leaves out some on the way to another host). -/
def clientDo (added : List (N × V)) (drop : Nat → N → Bool) (host : H) (redirects : List H) (h : Hdr N V) :
    List (Sent N V H) × Hdr N V :=
  let first := roundTrip added h
  (⟨host, first.1⟩ :: redirects.zipIdx.map fun r =>
    ⟨r.1, (roundTrip added (fun n => if drop r.2 n then none else h n)).1⟩, first.2)

end Verif.Rest.Header
