import Verif.Rest.UrlModel
import Verif.Rest.ParseModel
import Verif.Rest.HttpModel
/-!
# Model of a REST call: the linked client and the handler of an operation

Models `clientWrite`, `encodeQuery` and the request of `/repo/api/rest/link.go:70-178,315-349`
and the handler that `attach` makes for an operation, `/repo/api/rest/host.go:659-936`.

Values are of an arbitrary type `V`; a Go type is described by what the code asks of it
(`Kind`). The encodings behind the content types are parameters (`Codec`): package
encoding/json and its like are not modelled. Arguments live in cells addressed by the `Index`
of their parameter. Not modelled: arguments that are `io.Reader`, pointers inside a
destructured struct, and `time` and cancellation.
-/
namespace Verif.Rest.Serve

open Verif.Rest

variable {V : Type}

/-- What the code asks of a type that is neither a slice nor a pointer: its zero value
(host.go:691), whether its kind is `reflect.String` and how such a value is set
(host.go:791), `UnmarshalText` (795), `UnmarshalJSON` (800), `fmt.Sscanf` with `%v` (811), and
for the client `IsZero` (link.go:69), `MarshalText` (70), `MarshalJSON` (73) and `fmt.Sprintf`
with `%v` (86,146). -/
structure Kind (V : Type) where
  zero : V
  setString : Option (Str → V) := none
  unText : Option (Str → Option V) := none
  unJSON : Option (Str → Option V) := none
  scan : Str → Option V
  isZero : V → Bool
  toText : Option (V → Str) := none
  toJSON : Option (V → Str) := none
  print : V → Str

/-- The type of a parameter (`rest.go:222, asked of it at host.go:719, 735`). -/
inductive Shape (V : Type) where
  | one (k : Kind V)
  | slice (k : Kind V)
  | ptr (k : Kind V)

/-- The value of a parameter; for a pointer `one` is what it points to (`host.go:690-693`). -/
inductive Arg (V : Type) where
  | one (v : V)
  | many (vs : List V)
  | nilPtr
deriving DecidableEq

/-- `reflect.New(t).Elem()` (host.go:691). -/
def Shape.zero : Shape V → Arg V
  | .one k => .one k.zero
  | .slice _ => .many []
  | .ptr _ => .nilPtr

/-- `parameter` (rest.go:220-234). -/
structure Prm (V : Type) where
  name : Str
  shape : Shape V
  loc : Loc
  index : List Nat

/-- The arguments of a call, by index (`host.go:690-693, 712-733`). -/
abbrev Cells (V : Type) := List Nat → Arg V

/-- Writing to an argument (`host.go:738, 743, 791`). -/
def setCell (c : Cells V) (i : List Nat) (a : Arg V) : Cells V :=
  fun j => if j = i then a else c j

/-- `operation` (rest.go:188-207): method and cleaned-up path, parameters, constants, the
default content type, the argument rules and the result rules. -/
structure Op (V : Type) where
  method : Str
  path : Str
  params : List (Prm V)
  constants : List (Str × Str) := []
  ctype : Str := "application/json".toList
  argRules : List Str := []
  resRules : List Str := []

/-- An encoding: of a value, of named values, and back. Decoding leaves what it did not
consume (the entries of `contentTypes`, mime.go:135-252). -/
structure Codec (V : Type) where
  enc : Arg V → Str
  encObj : List (Str × Arg V) → Str
  dec : Shape V → Str → Option (Arg V × Str)
  decObj : List (Str × Shape V) → Str → Option (List (Arg V))

/-- The keys of `contentTypes` (mime.go:140-252). -/
def contentTypes : List Str :=
  ["application/json".toList, "application/xml".toList, "text/plain".toList,
   "multipart/form-data".toList, "application/json+schema".toList]

/-- The content types whose `Decode` is not nil (mime.go:140-252). -/
def decodable : List Str :=
  ["application/json".toList, "application/xml".toList, "text/plain".toList]

/-- A request as the handler sees it: what the router left, the query, the body, and the
headers Accept and Content-Type (`what host.go:659-936 reads of it`). -/
structure Request where
  mux : Req
  query : List (Str × Str) := []
  body : Str := []
  accept : Str := []
  ctype : Str := []

/-- How a step of the handler ends: it goes on, it calls `handle` with an error, it writes a
status with `http.Error`, or it panics (`host.go:698-705, 753-760, 795-813`). -/
inductive Step (α : Type) where
  | ok (a : α)
  | fail (message : Str)
  | status (code : Nat)
  | panic

/-- Going on (`the order of host.go:694-824`). -/
def Step.bind {α β : Type} : Step α → (α → Step β) → Step β
  | .ok a, f => f a
  | .fail m, _ => .fail m
  | .status c, _ => .status c
  | .panic, _ => .panic

/-- Reads a text into a value that is not a slice (host.go:787-816); `isNumber` is
`strconv.ParseFloat` without error, `quote` is `strconv.Quote`. -/
def readText (isNumber : Str → Bool) (quote : Str → Str) (k : Kind V) (s : Str) : Option V :=
  match k.setString with
  | some f => some (f s)
  | none =>
    match k.unText with
    | some f => f s
    | none =>
      match k.unJSON with
      | some f =>
        if isNumber s ∨ s = "true".toList ∨ s = "false".toList then
          match f s with
          | some v => some v
          | none => f (quote s)
        else f (quote s)
      | none => k.scan s

/-- The standard library's `ParseFloat` and `Quote`, as the handler uses them
(host.go:799,804). -/
structure Std where
  isNumber : Str → Bool
  quote : Str → Str

/-- The text for a parameter that is not read element by element (host.go:772-786). -/
def paramText (p : Prm V) (rq : Request) : Str :=
  match p.loc with
  | .void => []
  | .at path query =>
    let val := if path then rq.mux.pathValue p.name else []
    if query then (if getValue rq.query p.name = [] then val else getValue rq.query p.name) else val

/-- Elements of a slice (host.go:765-823 for more than one item): an empty text leaves the
zero value. -/
def readElems (std : Std) (k : Kind V) : List Str → Step (List V)
  | [] => .ok []
  | s :: ss =>
    match (if s = [] then some k.zero else readText std.isNumber std.quote k s) with
    | none => .fail "please provide a valid value".toList
    | some v => (readElems std k ss).bind fun vs => .ok (v :: vs)

/-- Reads a parameter from the path or the query (host.go:734-823). A pointer argument is nil,
so storing into it panics; scanning into a pointer to a slice is an error. -/
def readPlain (std : Std) (p : Prm V) (rq : Request) : Step (Arg V) :=
  match p.shape with
  | .one k =>
    let val := paramText p rq
    if val = [] then .ok (.one k.zero)
    else match readText std.isNumber std.quote k val with
      | some v => .ok (.one v)
      | none => .fail "please provide a valid value".toList
  | .ptr _ => if paramText p rq = [] then .ok .nilPtr else .panic
  | .slice k =>
    match p.loc with
    | .at _ true =>
      let vals := valuesOf rq.query (p.name ++ "[]".toList)
      if vals.length = 0 then .ok (.many [])
      else if vals.length = 1 then
        -- one item is read from the parameter's plain name, into the slice itself
        if paramText p rq = [] then .ok (.many [k.zero])
        else .fail "please provide a valid value".toList
      else (readElems std k vals).bind fun vs => .ok (.many vs)
    | _ =>
      if paramText p rq = [] then .ok (.many []) else .fail "please provide a valid value".toList

/-- What the handler knows while it reads arguments: the cells, what is left of the body, the
mapped values not yet used (`host.go:690-695`). -/
structure Reading (V : Type) where
  cells : Cells V
  body : Str
  mapped : List (Arg V)

/-- `decoder.Decode(r.Body, dst)` (host.go:702,757) for a content type: an unknown type was
refused before, a type without decoder is a nil function. Decoding into a nil pointer is an
error. -/
def decodeBody (codec : Str → Codec V) (ctype : Str) (sh : Shape V) (body : Str) :
    Step (Arg V × Str) :=
  if ctype ∉ contentTypes then .status 422
  else if ctype ∉ decodable then .panic
  else match sh with
    | .ptr _ => .fail "please provide a json encoded value".toList
    | sh => match (codec ctype).dec sh body with
      | some r => .ok r
      | none => .fail "please provide a json encoded value".toList

/-- One turn of the loop over the parameters (host.go:707-824). -/
def readParam (std : Std) (codec : Str → Codec V) (mapping : Bool) (ctype : Str) (rq : Request)
    (p : Prm V) (st : Reading V) : Step (Reading V) :=
  if p.loc = .void then .ok st
  else if p.loc = Loc.body then
    if mapping then
      match st.mapped with
      | a :: rest => .ok { st with cells := setCell st.cells p.index a, mapped := rest }
      | [] => .panic
    else (decodeBody codec ctype p.shape st.body).bind fun (a, rest) =>
      .ok { st with cells := setCell st.cells p.index a, body := rest }
  else (readPlain std p rq).bind fun a => .ok { st with cells := setCell st.cells p.index a }

/-- The loop over the parameters (host.go:707-824). -/
def readParams (std : Std) (codec : Str → Codec V) (mapping : Bool) (ctype : Str) (rq : Request) :
    List (Prm V) → Reading V → Step (Reading V)
  | [], st => .ok st
  | p :: ps, st =>
    (readParam std codec mapping ctype rq p st).bind fun st =>
      readParams std codec mapping ctype rq ps st

/-- The zero arguments (host.go:690-693). -/
def zeros (ps : List (Prm V)) : Cells V :=
  fun i => ((ps.find? (fun p => p.index = i)).map (fun p => p.shape.zero)).getD .nilPtr

/-- The shapes of the body arguments, in order (rest.go:362-372). -/
def bodyShapes (ps : List (Prm V)) : List (Shape V) :=
  (ps.filter (fun p => p.loc = Loc.body)).map Prm.shape

/-- `mime.ParseMediaType` as far as it is used here (host.go:682,908): the text before the
first semicolon, trimmed, in lower case. A list of parameters that names one twice makes the
result empty, which is not modelled. -/
def mediaType (s : Str) : Str := (trimSpace (cut ';' s).1).map Char.toLower

/-- The content type of the request (host.go:682-688). -/
def requestType (op : Op V) (rq : Request) : Str :=
  let c := mediaType rq.ctype
  if c ≠ [] then c else if op.ctype ≠ [] then op.ctype else "application/json".toList

/-- Decoding the body into a struct of the argument rules (host.go:694-706). -/
def readMapped (codec : Str → Codec V) (op : Op V) (ctype : Str) (rq : Request) :
    Step (List (Arg V)) :=
  if op.argRules = [] then .ok []
  else if ctype ∉ contentTypes then .status 422
  else if ctype ∉ decodable then .panic
  else match (codec ctype).decObj (op.argRules.zip (bodyShapes op.params)) rq.body with
    | none => .fail ("please provide valid '".toList ++ ctype ++ "'".toList)
    | some vs => .ok vs

/-- The arguments the handler reads (host.go:682-824). With argument rules the body is decoded
into a struct of the rules first. -/
def readArgs (std : Std) (codec : Str → Codec V) (op : Op V) (rq : Request) : Step (Cells V) :=
  (readMapped codec op (requestType op rq) rq).bind fun mapped =>
  (readParams std codec (op.argRules ≠ []) (requestType op rq) rq op.params
    { cells := zeros op.params, body := rq.body, mapped }).bind fun st => .ok st.cells

/-! ## The client -/

/-- `encodeQuery` on a value that is not a slice (link.go:68-90): nothing for the zero value;
`unquote` is `strconv.Unquote`. -/
def encodeOne (unquote : Str → Str) (name : Str) (k : Kind V) (v : V) : List (Str × Str) :=
  if k.isZero v then []
  else match k.toText with
    | some f => [(name, f v)]
    | none =>
      match k.toJSON with
      | some f => [(name, if (f v).head? = some '"' then unquote (f v) else f v)]
      | none => [(name, k.print v)]

/-- `encodeQuery` (link.go:70-92): the elements of a slice one by one under the same name,
nothing for a nil pointer. -/
def encodeQuery (unquote : Str → Str) (name : Str) : Shape V → Arg V → List (Str × Str)
  | .one k, .one v => encodeOne unquote name k v
  | .ptr k, .one v => encodeOne unquote name k v
  | .slice k, .many vs => (vs.map (encodeOne unquote name k)).flatten
  | _, _ => []

/-- Whether `pat` is a prefix of `s`, and what follows it (as `strings.Replace` needs it, link.go:150). -/
def dropPrefix : Str → Str → Option Str
  | [], s => some s
  | _ :: _, [] => none
  | p :: pat, c :: s => if p = c then dropPrefix pat s else none

/-- `strings.Replace(s, pat, val, 1)` for a pattern that is not empty (link.go:150). -/
def replaceFirst (pat val : Str) : Str → Str
  | [] => []
  | c :: s =>
    match dropPrefix pat (c :: s) with
    | some rest => val ++ rest
    | none => c :: replaceFirst pat val s

/-- `fmt.Sprintf("%v", deref(param.Index).Interface())` (link.go:146); none is the panic for a
nil pointer. `printSlice` prints slices. -/
def pathText (printSlice : List V → Str) : Shape V → Arg V → Option Str
  | .one k, .one v => some (k.print v)
  | .ptr k, .one v => some (k.print v)
  | .slice _, .many vs => some (printSlice vs)
  | _, _ => none

/-- The client's side of the standard library (`link.go:79, 89, 146, 148`). -/
structure CStd (V : Type) where
  unquote : Str → Str
  printSlice : List V → Str

/-- What `clientWrite` has gathered: path, query, values to map, body (`link.go:105-140`). -/
structure Writing (V : Type) where
  path : Str
  query : List (Str × Str)
  mapping : List (Str × Arg V)
  body : Str

/-- `op.argumentsNeedsMapping` (rest.go:361-394): argument rules, or more than one argument in
the body. -/
def Op.clientMaps (op : Op V) : Bool := op.argRules ≠ [] || 1 < (bodyShapes op.params).length

/-- `mapping[name] = v` on the map that becomes the body (link.go:157). -/
def mapSet (m : List (Str × Arg V)) (k : Str) (a : Arg V) : List (Str × Arg V) :=
  if m.any (fun e => e.1 = k) then m.map (fun e => if e.1 = k then (k, a) else e) else m ++ [(k, a)]

/-- One turn of the loop in `clientWrite` (link.go:141-164); none is a panic. -/
def writeParam (std : CStd V) (codec : Str → Codec V) (op : Op V) (args : Cells V) (p : Prm V)
    (w : Writing V) : Option (Writing V) :=
  match p.loc with
  | .void => some w
  | .at false false =>
    match args p.index with
    | .nilPtr => none
    | a =>
      if op.clientMaps then some { w with mapping := mapSet w.mapping p.name a }
      else some { w with body := w.body ++ (codec op.ctype).enc a }
  | .at inPath inQuery =>
    (if inPath then
      (pathText std.printSlice p.shape (args p.index)).map fun t =>
        replaceFirst ('{' :: p.name ++ ['}'])
          (if p.name.getLast? = some '*' then t else pathEscape t) w.path
     else some w.path).map fun path =>
      { w with path, query := if inQuery then w.query ++ encodeQuery std.unquote p.name p.shape (args p.index)
                              else w.query }

/-- The loop in `clientWrite` (link.go:141-164). -/
def writeParams (std : CStd V) (codec : Str → Codec V) (op : Op V) (args : Cells V) :
    List (Prm V) → Writing V → Option (Writing V)
  | [], w => some w
  | p :: ps, w => (writeParam std codec op args p w).bind fun w => writeParams std codec op args ps w

/-- What a call of a linked function does before it sends a request (`link.go:299-324`). -/
inductive Sent (α : Type) where
  | request (a : α)
  | refused
  | panic

/-- The endpoint `clientWrite` returns (link.go:174-177). -/
def endpoint (w : Writing V) : Str :=
  if w.query = [] then w.path else w.path ++ '?' :: encodeValues w.query

/-- Methods whose requests are sent without a body (link.go:331-337). -/
def bodiless : List Str :=
  ["GET".toList, "HEAD".toList, "DELETE".toList, "OPTIONS".toList, "TRACE".toList]

/-- `clientWrite` and the request made of it (link.go:105-178,315-349): the request as it
arrives at the host. An endpoint that is no URL is refused. -/
def send (std : CStd V) (codec : Str → Codec V) (op : Op V) (args : Cells V) : Sent Request :=
  if op.ctype ∉ contentTypes then .refused
  else match writeParams std codec op args op.params
      { path := op.path, query := op.constants, mapping := [], body := [] } with
    | none => .panic
    | some w =>
      match parseEndpoint (endpoint w) with
      | none => .refused
      | some (path, query) =>
        .request
          { mux := { method := op.method, path }
            query
            body := if op.method ∈ bodiless then []
                    else if op.clientMaps then (codec op.ctype).encObj w.mapping else w.body
            accept := "application/json".toList
            ctype := op.ctype }

end Verif.Rest.Serve
