import Verif.Rest.MuxModel
/-!
# URLs as the REST client writes them and the REST host reads them

Models the parts of net/url that `/repo/api/rest/link.go:136-177,338` and
`/repo/api/rest/host.go:737,775-785` call: `PathEscape`, `QueryEscape`, `Values.Add`,
`Values.Encode`, parsing an endpoint, `URL.Query`. A Go string is the list of its bytes, each
as the character with that code.
-/
namespace Verif.Rest

/-- Letters, digits and `-_.~`, which net/url never escapes (`shouldEscape`, used through
link.go:148,177). -/
def unreserved (c : Char) : Bool :=
  ('a' ≤ c && c ≤ 'z') || ('A' ≤ c && c ≤ 'Z') || ('0' ≤ c && c ≤ '9') ||
    c == '-' || c == '_' || c == '.' || c == '~'

/-- What else `url.PathEscape` leaves as it is (link.go:148). -/
def segPlain (c : Char) : Bool :=
  unreserved c || c == '$' || c == '&' || c == '+' || c == ':' || c == '=' || c == '@'

/-- An upper-case hexadecimal digit (inside `PathEscape` and `Encode`, link.go:148, 177). -/
def hexDigit (n : Nat) : Char := if n < 10 then Char.ofNat (48 + n) else Char.ofNat (55 + n)

/-- `%XX` (inside `PathEscape` and `Encode`, link.go:148, 177). -/
def pctEncode (c : Char) : Str := ['%', hexDigit (c.toNat / 16), hexDigit (c.toNat % 16)]

/-- `url.PathEscape` (link.go:148). -/
def pathEscape : Str → Str
  | [] => []
  | c :: s => (if segPlain c then [c] else pctEncode c) ++ pathEscape s

/-- `url.QueryEscape` (link.go:177, by `Values.Encode`): a space becomes a plus. -/
def queryEscape : Str → Str
  | [] => []
  | c :: s => (if unreserved c then [c] else if c = ' ' then ['+'] else pctEncode c) ++ queryEscape s

/-- The value of a hexadecimal digit (inside `URL.Query`, host.go:737, 777, 782). -/
def unhex (c : Char) : Option Nat :=
  if '0' ≤ c ∧ c ≤ '9' then some (c.toNat - 48)
  else if 'a' ≤ c ∧ c ≤ 'f' then some (c.toNat - 87)
  else if 'A' ≤ c ∧ c ≤ 'F' then some (c.toNat - 55)
  else none

/-- `unescape` of net/url: in a query a plus is a space; a percent sign needs two hexadecimal
digits after it (inside `URL.Query`, host.go:737, 777, 782, and `NewRequestWithContext`, link.go:338). -/
def unescape (query : Bool) : Str → Option Str
  | [] => some []
  | '%' :: a :: b :: s =>
    match unhex a, unhex b with
    | some x, some y => (unescape query s).map (Char.ofNat (x * 16 + y) :: ·)
    | _, _ => none
  | '%' :: _ => none
  | c :: s => (unescape query s).map ((if query ∧ c = '+' then ' ' else c) :: ·)

/-- Puts a pair before the first one whose key is not smaller (inside `Values.Encode`, link.go:177). -/
def insertPair (p : Str × Str) : List (Str × Str) → List (Str × Str)
  | [] => [p]
  | q :: qs => if q.1 < p.1 then q :: insertPair p qs else p :: q :: qs

/-- The pairs by key, those of one key in their order (`slices.Sorted(maps.Keys(v))` in
`Values.Encode`, link.go:175). -/
def sortPairs (q : List (Str × Str)) : List (Str × Str) := q.foldr insertPair []

/-- One `key=value` of `Values.Encode` (`link.go:177`). -/
def pairText (p : Str × Str) : Str := queryEscape p.1 ++ '=' :: queryEscape p.2

/-- `Values.Encode` (link.go:177): keys sorted, the values of a key in the order they were
added. The argument is the list of `Add`s in order. -/
def encodeValues (q : List (Str × Str)) : Str :=
  join '&' ((sortPairs q).map pairText)

/-- One piece between ampersands in `url.ParseQuery` (by `URL.Query`, host.go:737,777,782):
ignored if empty, if it has a semicolon, or if it does not unescape. -/
def parsePair (piece : Str) : Option (Str × Str) :=
  if piece = [] ∨ ';' ∈ piece then none
  else
    let c := cut '=' piece
    match unescape true c.1, unescape true c.2.1 with
    | some k, some v => some (k, v)
    | _, _ => none

/-- `URL.Query` (host.go:737,777,782): the pairs in order. -/
def parseQuery (q : Str) : List (Str × Str) := (split '&' q).filterMap parsePair

/-- `Query()[key]` (`host.go:737, 777`). -/
def valuesOf (q : List (Str × Str)) (key : Str) : List Str :=
  (q.filter (fun p => p.1 = key)).map Prod.snd

/-- `Query().Get(key)`: the first value or the empty string (`host.go:782`). -/
def getValue (q : List (Str × Str)) (key : Str) : Str := (valuesOf q key).headD []

/-- The path and the query the host sees for an endpoint (`http.NewRequestWithContext`,
link.go:338, and the server's parse of the request line): the fragment is not sent, the path
is unescaped. The host of the link is taken to have no path of its own. -/
def parseEndpoint (e : Str) : Option (Str × List (Str × Str)) :=
  let u := (cut '#' e).1
  let c := cut '?' u
  (unescape false c.1).map fun p => (p, parseQuery c.2.1)

end Verif.Rest
