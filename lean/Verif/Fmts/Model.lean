/-!
# Model of format linking (api/fmts/fmts.go)

`sprintf` and `sscanf` are what the caller gives to `Link`; only `sprintf("%v")` of strings is given a meaning, in the
specification. A function is known by what the linker asks of its signature. The map of `api.Structure.Namespace` is a list
in the order in which it is iterated over.
-/
namespace Verif.Fmts

/-- A text (values and formats, `fmts.go:18-26`). -/
abbrev Str := List Char

/-- `strings.HasPrefix` (`fmts.go:28`). -/
def hasPrefix : Str → Str → Bool
  | _, [] => true
  | [], _ :: _ => false
  | c :: s, p :: ps => c = p && hasPrefix s ps

/-- `strings.HasSuffix` (`fmts.go:34`, `:86`). -/
def hasSuffix (s suffix : Str) : Bool := hasPrefix s.reverse suffix.reverse

/-- The number of occurrences of a text that is not empty, from left to right and not overlapping; `skip` is how much of the
last one is still to be passed over (`fmts.go:40`). -/
def countFrom (key : Str) : Nat → Str → Nat
  | _, [] => 0
  | skip + 1, _ :: s => countFrom key skip s
  | 0, c :: s => if hasPrefix (c :: s) key then countFrom key (key.length - 1) s + 1 else countFrom key 0 s

/-- `strings.Count`; the empty text occurs before each character and at the end (`fmts.go:40`). -/
def count (s key : Str) : Nat := if key = [] then s.length + 1 else countFrom key 0 s

/-- `strings.Split(s, "%v")` (`fmts.go:84`). -/
def split : Str → List Str
  | [] => [[]]
  | '%' :: 'v' :: s => [] :: split s
  | c :: s =>
    match split s with
    | [] => [[c]]
    | p :: ps => (c :: p) :: ps

/-- `strings.Cut(s, "%v")` (`fmts.go:79`). -/
def cut : Str → Option (Str × Str)
  | [] => none
  | '%' :: 'v' :: s => some ([], s)
  | c :: s => (cut s).map fun p => (c :: p.1, p.2)

/-- `candidate` without `author` (fmts.go:18-24); `search` is a Go map, as the list of its entries. -/
structure Candidate where
  format : Str
  pre : Str
  suf : Str
  search : List (Str × Nat)
deriving DecidableEq, Repr

/-- `search[k] += 1` (fmts.go:91). -/
def bump (m : List (Str × Nat)) (k : Str) : List (Str × Nat) :=
  match m with
  | [] => [(k, 1)]
  | (k', n) :: rest => if k' = k then (k', n + 1) :: rest else (k', n) :: bump rest k

/-- What is before the first `%v` and what is after it; a tag without `%v` is all after it (fmts.go:79-83). -/
def cutTag (tag : Str) : Str × Str :=
  match cut tag with
  | some p => p
  | none => ([], tag)

/-- The candidate for a tag, of which `pre` is before the first `%v` and `format` after it (fmts.go:84-99). -/
def candidateFrom (tag pre format : Str) : Candidate :=
  { format := tag
    pre := pre
    suf := if hasSuffix format ['%', 'v'] then [] else (split format).getLast?.getD []
    search := (split format).dropLast.foldl bump [] }

/-- The candidate for a tag (fmts.go:79-99). -/
def candidateOf (tag : Str) : Candidate := candidateFrom tag (cutTag tag).1 (cutTag tag).2

/-- `rank` (fmts.go:26-46): the score from the prefix on. -/
def rankSearch (value : Str) : Nat → List (Str × Nat) → Nat
  | score, [] => score
  | score, (key, n) :: rest => if count value key = n then rankSearch value (score + 1) rest else 0

/-- `rank` (fmts.go:33-38): the score from the suffix on. -/
def rankSuffix (c : Candidate) (value : Str) (score : Nat) : Nat :=
  if c.suf ≠ [] then if hasSuffix value c.suf then rankSearch value (score + 1) c.search else 0
  else rankSearch value score c.search

/-- `rank` (fmts.go:26-46). -/
def rank (c : Candidate) (value : Str) : Nat :=
  if c.pre ≠ [] then if hasPrefix value c.pre then rankSuffix c value 1 else 0 else rankSuffix c value 0

/-- The state of the loop of `Parser` (fmts.go:121-134): `highest`, where `none` is -1, `matches` and `sharing`. -/
structure Best where
  highest : Option Nat := none
  «matches» : Nat := 0
  sharing : Nat := 0

/-- One turn of the loop (fmts.go:124-134). -/
def Best.step (b : Best) (i score : Nat) : Best :=
  if b.highest = some score then { b with sharing := b.sharing + 1 }
  else if (match b.highest with | none => true | some h => decide (h < score)) then ⟨some score, i, 0⟩ else b

/-- The loop over the candidates' scores, from index `i` on (`fmts.go:124-134`). -/
def Best.loop (b : Best) : Nat → List Nat → Best
  | _, [] => b
  | i, s :: ss => (b.step i s).loop (i + 1) ss

/-- What `Parser` chooses (fmts.go:120-141): the index of a candidate, or nil. -/
def choose (candidates : List Candidate) (value : Str) : Option Nat :=
  let b := Best.loop {} 0 (candidates.map (rank · value))
  match b.highest with
  | none => none
  | some _ => if b.sharing > 0 then none else some b.matches

/-! ## Linking -/

/-- The type of an argument or a result, as far as it is looked at: of kind string (with its identity), `any`, `error`,
`context.Context`, or another (`fmts.go:53-58`, `:113-117`, `:156`). -/
inductive Ty where
  | str (n : Nat)
  | any
  | err
  | ctx
  | other (n : Nat)
deriving DecidableEq, Repr

/-- Is it of kind string? (`fmts.go:58`, `:117`, `:156`) -/
def Ty.isStr : Ty → Bool
  | .str _ => true
  | .any => false
  | .err => false
  | .ctx => false
  | .other _ => false

/-- The identity of a type of kind string (`formats[stype]`, `fmts.go:74`, `:93`, `:118`). -/
def Ty.strId : Ty → Option Nat
  | .str n => some n
  | .any => none
  | .err => none
  | .ctx => none
  | .other _ => none

/-- A function of a structure: its types and its `fmts` tag (`api.Function` as used at `fmts.go:52-64`, `:112-162`). -/
structure Fn where
  ins : List Ty
  outs : List Ty
  tag : Option Str
deriving DecidableEq, Repr

/-- `Function.NumIn` (api/api.go): arguments without a leading context. -/
def Fn.numIn (f : Fn) : Nat := if f.ins.head? = some .ctx then f.ins.length - 1 else f.ins.length

/-- `Function.NumOut` (api/api.go): results without a trailing error. -/
def Fn.numOut (f : Fn) : Nat := if f.outs.getLast? = some .err then f.outs.length - 1 else f.outs.length

/-- How a function has been implemented: not at all (nil), by `sscanf` with its tag, by the choice among candidates, or by
`sprintf` with its tag (`fn.Make` at `fmts.go:59`, `:119`, `:160`). -/
inductive Impl where
  | nil
  | scan (tag : Str)
  | choice (candidates : List Candidate)
  | print (tag : Str)
deriving DecidableEq, Repr

/-- Is it a parser for `fill` (fmts.go:53-58)? -/
def Fn.isParser (f : Fn) : Bool :=
  !(f.numOut = 2 && f.outs[0]? = some .any && f.outs[1]? = some .err) &&
  f.numIn = 1 && (f.ins[0]?.map Ty.isStr).getD false && f.outs.length > 1 &&
    f.outs.getLast? = some .err

/-- The type of the first argument, if it is of kind string (`fmts.go:58`, `:74`). -/
def Fn.strIn (f : Fn) : Option Nat := f.ins[0]?.bind Ty.strId

/-- A structure and the structures in its namespace (`api.Structure`, `fmts.go:51`, `:102`). -/
inductive Struct where
  | mk (functions : List Fn) (namespaces : List Struct)

mutual
/-- The candidates for one type of string that `fill` collects (fmts.go:51-105). -/
def fill (ty : Nat) : Struct → List Candidate
  | .mk fns subs =>
    (fns.filterMap fun f => if f.isParser ∧ f.strIn = some ty then f.tag.map candidateOf else none) ++ fillAll ty subs
/-- The same for a list of namespaces (fmts.go:102-104). -/
def fillAll (ty : Nat) : List Struct → List Candidate
  | [] => []
  | s :: ss => fill ty s ++ fillAll ty ss
end

/-- What `fill` has made of a function (fmts.go:58-73). -/
def Fn.filled (f : Fn) : Impl := if f.isParser then .scan (f.tag.getD []) else .nil

/-- What `Link` does to one function (fmts.go:113-164): it leaves it, implements it, or returns an error. -/
inductive LinkStep where
  | leave
  | make (i : Impl)
  | error

/-- One turn of the loop of `Link` (fmts.go:113-164); `formats` are the candidates by the type of the string. -/
def Fn.link (f : Fn) (formats : Nat → List Candidate) : LinkStep :=
  if f.outs.length > 1 ∧ f.outs.getLast? = some .err then .leave
  else if f.outs.length = 1 ∧ f.outs[0]? = some .any ∧ f.ins.length = 1 ∧ f.strIn.isSome then
    .make (.choice (formats (f.strIn.getD 0)))
  else if f.numOut ≠ 1 ∨ (f.outs[0]?.map Ty.isStr).getD false = false then .error
  else .make (.print (f.tag.getD []))

/-- The loop of `Link` over the functions (fmts.go:112-165): what they are, given what they were, and whether it returned an
error, after which the rest stay what they were. -/
def linkFns (formats : Nat → List Candidate) (before : Fn → Impl) : List Fn → List Impl × Bool
  | [] => ([], true)
  | f :: fs =>
    match f.link formats with
    | .leave => let (is, ok) := linkFns formats before fs; (before f :: is, ok)
    | .make i => let (is, ok) := linkFns formats before fs; (i :: is, ok)
    | .error => ((f :: fs).map before, false)

/-- The implementations of the functions of a structure (`fn.Make` at `fmts.go:59`, `:119`, `:160`). -/
inductive Impls where
  | mk (functions : List Impl) (namespaces : List Impls)

mutual
/-- What the functions of a structure were before `Link` got to them: nil, or what `fill` made
(`fmts.go:109-112`, `:167`). -/
def untouched (before : Fn → Impl) : Struct → Impls
  | .mk fns subs => .mk (fns.map before) (untouchedAll before subs)
/-- The same for a list (`fmts.go:166-168`). -/
def untouchedAll (before : Fn → Impl) : List Struct → List Impls
  | [] => []
  | s :: ss => untouched before s :: untouchedAll before ss
end

mutual
/-- `Link` of a namespace, with a nil `sscanf` (fmts.go:107-170): `formats` is empty, and the error is ignored (fmts.go:167). -/
def linkSub (before : Fn → Impl) : Struct → Impls
  | .mk fns subs =>
    let (is, ok) := linkFns (fun _ => []) before fns
    .mk is (if ok then linkSubs before subs else untouchedAll before subs)
/-- The loop over the namespaces (fmts.go:166-168). -/
def linkSubs (before : Fn → Impl) : List Struct → List Impls
  | [] => []
  | s :: ss => linkSub before s :: linkSubs before ss
end

/-- `Link` (fmts.go:107-170) with an `sscanf`: what the functions are, and whether it returned nil. -/
def link : Struct → Impls × Bool
  | .mk fns subs =>
    let (is, ok) := linkFns (fun ty => fill ty (.mk fns subs)) Fn.filled fns
    (.mk is (if ok then linkSubs Fn.filled subs else untouchedAll Fn.filled subs), ok)

end Verif.Fmts
