import Verif.Rest.ServeModel
import Verif.Rest.UrlLemmas
import Verif.Rest.MuxProps
/-!
# What it takes for the arguments of a call to travel

`Travels` lists, in terms of the operation, the routes of the host and the values of the call,
when an argument can be sent and read back. The theorems in `ServeProps` show that this is
enough, and that the parts of it that a user would not expect are needed.
-/
namespace Verif.Rest.Serve

open Verif.Rest Verif.Rest.Spec

variable {V H : Type}

/-- A value of a type without methods for text or JSON, whose printed text is read back. -/
structure Printed (k : Kind V) (v : V) : Prop where
  noText : k.unText = none ∧ k.toText = none
  noJSON : k.unJSON = none ∧ k.toJSON = none
  zero : k.isZero v = true ↔ v = k.zero
  bytes : ∀ c ∈ k.print v, IsByte c
  empty : k.print v = [] → v = k.zero
  set : ∀ f, k.setString = some f → f (k.print v) = v
  scan : k.setString = none → k.print v ≠ [] → k.scan (k.print v) = some v

/-- A value of a type, not a kind of string, with `MarshalText` and `UnmarshalText` that are
inverse to each other. -/
structure Textual (k : Kind V) (v : V) : Prop where
  notString : k.setString = none
  zero : k.isZero v = true ↔ v = k.zero
  both : ∃ f g, k.toText = some f ∧ k.unText = some g ∧ (∀ c ∈ f v, IsByte c) ∧
    (f v = [] → v = k.zero) ∧ g (f v) = some v

/-- A value of a type, not a kind of string and without methods for text, with `MarshalJSON` and `UnmarshalJSON`, whose JSON
is read back: a number, `true` or `false` as it is, or a string, without its quotes and in quotes again. A string that looks
like a number, `true` or `false` is tried without quotes first, which must not give another value. -/
structure Jsonic (std : Std) (cstd : CStd V) (k : Kind V) (v : V) : Prop where
  notString : k.setString = none
  noText : k.unText = none ∧ k.toText = none
  zero : k.isZero v = true ↔ v = k.zero
  both : ∃ f g, k.toJSON = some f ∧ k.unJSON = some g ∧
    (((f v).head? ≠ some '"' ∧ f v ≠ [] ∧ (∀ c ∈ f v, IsByte c) ∧ (std.isNumber (f v) = true ∨ f v = "true".toList ∨ f v = "false".toList) ∧
        g (f v) = some v) ∨
      ((f v).head? = some '"' ∧ ∃ t, cstd.unquote (f v) = t ∧ (t = [] → v = k.zero) ∧ (∀ c ∈ t, IsByte c) ∧ g (std.quote t) = some v ∧
        ((std.isNumber t = true ∨ t = "true".toList ∨ t = "false".toList) → ∀ w, g t = some w → w = v)))

/-- The parameter is read from the path. -/
def Prm.inPath (p : Prm V) : Bool := match p.loc with | .at b _ => b | .void => false

/-- The parameter is read from the query. -/
def Prm.inQuery (p : Prm V) : Bool := match p.loc with | .at _ b => b | .void => false

/-- The parameter is read from the body. -/
def Prm.inBody (p : Prm V) : Bool := match p.loc with | .at false false => true | _ => false

/-- The names of the parameters of a route. -/
def parNames : List Seg → List Str
  | [] => []
  | .lit _ :: ss => parNames ss
  | .par n :: ss => n :: parNames ss

/-- The request segment for a segment of the route: a literal itself, for a parameter the
printed argument of that name. -/
def Fills (op : Op V) (args : Cells V) : Seg → Str → Prop
  | .lit l, s => s = l
  | .par n, s => ∃ p ∈ op.params, p.inPath = true ∧ p.name = n ∧
      ∃ k v, p.shape = .one k ∧ args p.index = .one v ∧ s = k.print v

/-- How the body of a call is made: there is none, one argument, or several with names. -/
inductive BodyTravels (codec : Codec V) (op : Op V) (args : Cells V) : Prop
  | none (h : op.params.filter (·.inBody) = []) (hr : op.argRules = [])
  | one (p : Prm V) (h : op.params.filter (·.inBody) = [p]) (hr : op.argRules = [])
      (hm : op.method ∉ bodiless) (hs : ∀ k, p.shape ≠ .ptr k) (hn : args p.index ≠ .nilPtr)
      (hc : ∃ rest, codec.dec p.shape (codec.enc (args p.index)) = some (args p.index, rest))
  | named (hr : op.argRules ≠ []) (hm : op.method ∉ bodiless)
      (hn : (op.params.filter (·.inBody)).map Prm.name = op.argRules) (hd : op.argRules.Nodup)
      (hp : ∀ p ∈ op.params, p.inBody = true → args p.index ≠ .nilPtr)
      (hc : codec.decObj (op.argRules.zip ((op.params.filter (·.inBody)).map Prm.shape))
          (codec.encObj (op.argRules.zip ((op.params.filter (·.inBody)).map (fun p => args p.index)))) =
        some ((op.params.filter (·.inBody)).map (fun p => args p.index)))

/-- A call that travels: the route of the operation is in force at the host and wins for this
request, and every argument can be written and read. -/
structure Travels (std : Std) (cstd : CStd V) (codec : Str → Codec V) (rs : List (Route H)) (r : Route H) (op : Op V)
    (args : Cells V) (segs : List Str) : Prop where
  -- the route
  table : CleanTable rs
  current : Current rs r
  method : op.method = r.method
  path : op.path = requestPath (r.segs.map Seg.text)
  literals : ∀ l, Seg.lit l ∈ r.segs → ∀ c ∈ l, segPlain c = true
  names : ∀ n, Seg.par n ∈ r.segs → '{' ∉ n ∧ '}' ∉ n ∧ n.getLast? ≠ some '*'
  once : (parNames r.segs).Nodup
  -- the request
  filled : List.Forall₂ (Fills op args) r.segs segs
  wins : Preferred rs r.segs segs
  segments : ∀ s ∈ segs, CleanSeg s ∧ ∀ r' ∈ rs, s ≠ r'.method
  deeper : ∀ (i : Nat) name, r.segs[i]? = some (.par name) → ∀ j > i, ∀ r' ∈ rs,
    shape (r'.segs.take j) = shape (r.segs.take j) → r'.segs[j]? ≠ some (.par name)
  -- the parameters
  index : (op.params.filter (fun p => p.loc ≠ .void)).Pairwise (fun p q => p.index ≠ q.index)
  pathNames : ((op.params.filter (·.inPath)).map Prm.name).Perm (parNames r.segs)
  queryNames : (op.constants.map Prod.fst ++ (op.params.filter (·.inQuery)).map Prm.name).Nodup
  bytes : (∀ c ∈ op.constants, BytePair c) ∧ ∀ p ∈ op.params, ∀ c ∈ p.name, IsByte c
  inPath : ∀ p ∈ op.params, p.inPath = true →
    ∃ k v, p.shape = .one k ∧ args p.index = .one v ∧ Printed k v
  inQuery : ∀ p ∈ op.params, p.inQuery = true →
    ∃ k v, p.shape = .one k ∧ args p.index = .one v ∧ (Printed k v ∨ (p.inPath = false ∧ (Textual k v ∨ Jsonic std cstd k v)))
  -- the body
  ctype : op.ctype ∈ decodable
  body : BodyTravels (codec op.ctype) op args

/-- The arguments of a call arrive: the client sends a request, the router hands it to the
handler of the operation, and the handler reads the arguments the caller passed. -/
def Arrives (std : Std) (cstd : CStd V) (codec : Str → Codec V) (rs : List (Route H)) (h : H)
    (op : Op V) (args : Cells V) : Prop :=
  ∃ rq, send cstd codec op args = .request rq ∧
    ∃ req', (routerOf rs).serve rq.mux = .handled h req' ∧
      ∃ cells, readArgs std codec op { rq with mux := req' } = .ok cells ∧
        ∀ p ∈ op.params, p.loc ≠ .void → cells p.index = args p.index

end Verif.Rest.Serve
