import Verif.Rest.TagsModel
/-!
# Model of how a `rest` tag binds arguments

Models the parser of `/repo/api/rest/rest.go:433-724` (`newParser`, `parseBody`,
`parseParam`, `parseQuery`, `parseStructParam`, `parsePath`) and the part of `loadOperation`
that drives it (rest.go:323-345).

Go slices of ints (the `Index` of a parameter) are modelled with their backing arrays,
because the parser appends to shared slices. A Go type is modelled by what the parser asks
of it: pointer, struct with fields, or anything else, and whether it (or a pointer to it)
implements `encoding.TextUnmarshaler`. `FieldByName` is modelled for the fields a struct
declares itself; for fields promoted from an embedded struct the code panics (rest.go:656).
The texts of errors are not modelled.
-/
namespace Verif.Rest

/-- What the parser reads of a `reflect.StructField` (rest.go:577-590,673-690). -/
structure FieldInfo where
  name : Str
  restTag : Str := []
  jsonTag : Str := []
  exported : Bool := true
  anonymous : Bool := false
deriving DecidableEq

mutual
/-- `reflect.Type` (`as used at rest.go:565-613, 645-691`). -/
inductive Ty where
  | scalar (text : Bool)
  | ptr (t : Ty)
  | struct (text : Bool) (fs : Fields)
/-- The fields of a struct in order (`rest.go:575-581, 673-674`). -/
inductive Fields where
  | nil
  | cons (f : FieldInfo) (t : Ty) (rest : Fields)
end

/-- `Implements` or `PointerTo(...).Implements` for `encoding.TextUnmarshaler`
(rest.go:592-595); a pointer to a pointer has no methods. -/
def Ty.isText : Ty → Bool
  | .scalar b => b
  | .struct b _ => b
  | .ptr (.scalar b) => b
  | .ptr (.struct b _) => b
  | .ptr (.ptr _) => false

/-- `for arg.Kind() == reflect.Ptr { arg = arg.Elem() }` (rest.go:567-569,596-598,645-647). -/
def Ty.strip : Ty → Ty
  | .ptr t => t.strip
  | t => t

/-- A slice: its backing array and its length (`rest.go:233`). -/
structure Slice where
  arr : Nat
  len : Nat
deriving DecidableEq

/-- The backing arrays; the length of an array is the capacity of slices of it (`behind rest.go:604, 610, 613`). -/
abbrev Heap := List (List Nat)

/-- The elements of a slice (`behind rest.go:604, 610, 613`). -/
def Heap.read (h : Heap) (s : Slice) : List Nat := ((h[s.arr]?).getD []).take s.len

/-- A slice literal: a fresh array of just that size (`rest.go:460, 534, 616`). -/
def Heap.lit (h : Heap) (xs : List Nat) : Heap × Slice := (h ++ [xs], ⟨h.length, xs.length⟩)

/-- The capacity after growing from a full slice of that length, in Go 1.2x
(`runtime.nextslicecap`): twice, and from 256 a quarter and 192 more. Rounding up to a size
class, which changes nothing below 256, is left out (behind `append` at rest.go:604, 610, 613). -/
def grow (n : Nat) : Nat := if n < 256 then 2 * n else n + (n + 768) / 4

/-- `append(s, x)`: in place if there is room, otherwise into a new array
(rest.go:604,610,613). -/
def Heap.append (h : Heap) (s : Slice) (x : Nat) : Heap × Slice :=
  let a := (h[s.arr]?).getD []
  if s.len < a.length then (h.set s.arr (a.set s.len x), ⟨s.arr, s.len + 1⟩)
  else (h ++ [a.take s.len ++ x :: List.replicate (grow s.len - s.len - 1) 0],
        ⟨h.length, s.len + 1⟩)

/-- `parameterLocation` (rest.go:211-216): `void` is -1, which stays -1 under `|`; the others
are a set of path (4) and query (8), the empty set being the body (0). -/
inductive Loc where
  | void
  | at (path query : Bool)
deriving DecidableEq

/-- `|` on locations (rest.go:494,533,542). -/
def Loc.or : Loc → Loc → Loc
  | .void, _ => .void
  | _, .void => .void
  | .at a b, .at c d => .at (a || c) (b || d)

/-- `parameterInBody` (`rest.go:213`). -/
def Loc.body : Loc := .at false false

/-- `parameter` (rest.go:220-234) without its tags; `none` is the nil type. -/
structure Param where
  name : Str := []
  ty : Option Ty := none
  loc : Loc := .body
  index : Slice := ⟨0, 0⟩

/-- `parser` (rest.go:433-441) with the heap its slices live in. -/
structure Parser where
  pos : Int
  list : List Param
  static : List (Str × Str)
  heap : Heap

/-- The outcome of a Go function that returns an error or panics (`rest.go:480-724`). -/
inductive R (α : Type) where
  | ok (a : α)
  | err
  | panic

/-- Goes on with a result (the `if err != nil` of rest.go:490-492, 626-633, 718-720). -/
def R.bind {α β : Type} : R α → (α → R β) → R β
  | .ok a, f => f a
  | .err, _ => .err
  | .panic, _ => .panic

/-- `newParser` (rest.go:443-449): one zero parameter per argument. -/
def newParser (args : List Ty) : Parser :=
  { pos := 0, list := List.replicate args.length {}, static := [], heap := [[]] }

/-- Value of a decimal digit (for `Atoi` at rest.go:512). -/
def digit? (c : Char) : Option Nat := if '0' ≤ c ∧ c ≤ '9' then some (c.toNat - 48) else none

/-- One more digit of a number (rest.go:512). -/
def digitStep (acc : Option Nat) (c : Char) : Option Nat :=
  match acc, digit? c with
  | some n, some d => some (n * 10 + d)
  | _, _ => none

/-- Digits of a number (rest.go:512), most significant first. -/
def digits? (s : Str) : Option Nat := s.foldl digitStep (some 0)

/-- `strconv.Atoi` on 64 bits (rest.go:512): sign, at least one digit, in range. -/
def atoi (s : Str) : Option Int :=
  let (neg, ds) := match s with
    | '-' :: ds => (true, ds)
    | '+' :: ds => (false, ds)
    | ds => (false, ds)
  if ds = [] then none else
  match digits? ds with
  | none => none
  | some n =>
    if neg then (if n ≤ 2 ^ 63 then some (-(n : Int)) else none)
    else (if n < 2 ^ 63 then some (n : Int) else none)

/-- `strings.Contains(s, c)` for one byte (`rest.go:481, 507, 708`). -/
def has (s : Str) (c : Char) : Bool := s.contains c

/-- The field a struct declares under a name, with its position (`FieldByName`,
rest.go:654). -/
def Fields.byName : Fields → Str → Nat → Option (Nat × Ty)
  | .nil, _, _ => none
  | .cons f t rest, n, i => if f.name = n then some (i, t) else rest.byName n (i + 1)

/-- The first field with a matching `rest` or `json` tag (rest.go:672-691). -/
def Fields.byTag : Fields → Str → Nat → Option (Nat × FieldInfo × Ty)
  | .nil, _, _ => none
  | .cons f t rest, n, i =>
      if f.restTag = n ∨ f.jsonTag = n then some (i, f, t) else rest.byTag n (i + 1)

/-- `for _, name := range path` (rest.go:653-664): the indexes collected, the type arrived
at, and whether all names were found. `FieldByName` panics on anything but a struct. -/
def follow : List Str → Ty → List Nat → Bool → R (List Nat × Ty × Bool)
  | [], t, idx, found => .ok (idx, t, found)
  | n :: ns, t, idx, found =>
    match t with
    | .struct _ fs =>
      match fs.byName n 0 with
      | some (i, t') => follow ns t' (idx ++ [i]) found
      | none => follow ns t idx false
    | _ => .panic

/-- `parseStructParam` (rest.go:640-698) for the arguments from position `i` on: the index,
type and name of the parameter. In the search by tags the variable `i` is the position of
the field, not of the argument (rest.go:673-691). -/
def structParam (param : Str) : List Ty → Nat → R (List Nat × Ty × Str)
  | [], _ => .err
  | arg :: args, i =>
    match arg.strip with
    | .struct _ _ =>
      (follow (split '.' param) arg.strip [] true).bind fun (idx, t, found) =>
        if found then .ok (i :: idx, t, param)
        else match t with
          | .struct _ fs =>
            match fs.byTag param 0 with
            | some (j, _, ft) => .ok ([j, j], ft, param)
            | none => structParam param args (i + 1)
          | _ => .panic
    | _ => structParam param args (i + 1)

/-- Appends a parameter found in a struct (rest.go:489-496,538-544). -/
def Parser.addStruct (p : Parser) (args : List Ty) (param name : Str) (loc : Loc) : R Parser :=
  (structParam param args 0).bind fun (idx, t, _) =>
    let (h, s) := p.heap.lit idx
    .ok { p with heap := h, list := p.list ++ [{ name, ty := some t, loc := Loc.body.or loc, index := s }] }

/-- `p.list[p.pos-1]` and its update (rest.go:520-535). -/
def Parser.bindArg (p : Parser) (args : List Ty) (name : Str) (loc : Loc) : R Parser :=
  if p.pos - 1 ≥ args.length then .err
  else if p.pos - 1 < 0 then .panic
  else
    let k := (p.pos - 1).toNat
    match p.list[k]? with
    | none => .panic
    | some ex =>
      if ex.name ≠ [] ∧ ex.name ≠ name then .err
      else
        let (h, s) := p.heap.lit [k]
        let ex := { name := if ex.name = [] then name else ex.name, ty := args[k]?,
                    loc := ex.loc.or loc, index := s }
        .ok { p with heap := h, list := p.list.set k ex }

/-- Sets the position a format stands for (rest.go:502-519). -/
def Parser.seek (p : Parser) (format : Str) : R Parser :=
  match format with
  | _ :: '[' :: rest =>
    -- format[2:len(format)-1]
    let inner := rest.dropLast
    if ¬ has inner ']' then .err
    else match atoi (cut ']' inner).1 with
      | none => .err
      | some i => .ok { p with pos := i }
  | _ => .ok { p with pos := p.pos + 1 }

/-- `parseParam` (rest.go:480-546). -/
def Parser.parseParam (p : Parser) (param : Str) (args : List Ty) (loc : Loc) : R Parser :=
  if has param '=' ∨ param.head? = some '%' then
    let c := cut '=' param
    let name := c.1
    let format := if c.2.2 then c.2.1 else name
    match format with
    | [] => .panic
    | f0 :: frest =>
      if f0 ≠ '%' then
        if c.2.2 then
          if f0 = '$' then p.addStruct args frest name loc
          else .ok { p with static := p.static ++ [(name, format)] }
        else .ok p
      else if format.getLast? ≠ some 'v' then .err
      else (p.seek format).bind fun p => p.bindArg args name loc
  else p.addStruct args param param loc

/-- Runs `parseParam` over several parameters, stopping at the first error (`rest.go:717-721`). -/
def Parser.parseParams (p : Parser) (ps : List Str) (args : List Ty) (loc : Loc) : R Parser :=
  match ps with
  | [] => .ok p
  | x :: xs => (p.parseParam x args loc).bind fun p => p.parseParams xs args loc

/-- The name of a destructured field (rest.go:582-590). -/
def fieldParamName (f : FieldInfo) (parent : Str) : Str :=
  let name := if f.restTag ≠ [] then f.restTag else (cut ',' f.jsonTag).1
  let name := if name = [] then f.name else name
  if parent ≠ [] then parent ++ '.' :: name else name

/-- The parameter added for a leaf (rest.go:599-608). -/
def Parser.addLeaf (p : Parser) (name : Str) (t : Ty) (index : Slice) (i : Nat) : Parser :=
  let (h, s) := p.heap.append index i
  { p with heap := h, list := p.list ++ [{ name, ty := some t, loc := .at false true, index := s }] }

mutual
/-- One field of `walk` after its name was chosen (rest.go:596-613): pointers are followed,
anything that is no struct or unmarshals from text is a parameter, a struct is walked. -/
def Parser.walkTy (p : Parser) (t : Ty) (text anonymous : Bool) (name parent : Str)
    (index : Slice) (i : Nat) : Parser :=
  match t with
  | .ptr t => p.walkTy t text anonymous name parent index i
  | .scalar b => p.addLeaf name (.scalar b) index i
  | .struct b fs =>
    if text then p.addLeaf name (.struct b fs) index i
    else
      let (h, s) := p.heap.append index i
      { p with heap := h }.walkFields fs 0 s (if anonymous then parent else name)
/-- `walk` (rest.go:573-615), from the field at position `i`. -/
def Parser.walkFields (p : Parser) (fs : Fields) (i : Nat) (index : Slice) (parent : Str) : Parser :=
  match fs with
  | .nil => p
  | .cons f t rest =>
    if ¬ f.exported then p.walkFields rest (i + 1) index parent
    else
      (p.walkTy t t.isText f.anonymous (fieldParamName f parent) parent index i).walkFields rest
        (i + 1) index parent
end

/-- `destructure` and its caller for a query parameter that starts with a percent sign
(rest.go:560-629). Nothing after the percent sign is looked at. -/
def Parser.destructure (p : Parser) (args : List Ty) : R Parser :=
  if p.pos ≥ p.list.length then .err
  else if p.pos < 0 then .panic
  else
    let k := p.pos.toNat
    let list := match p.list[k]? with
      | some ex => p.list.set k { ex with loc := .void }
      | none => p.list
    match args[k]? with
    | none => .err
    | some arg =>
      match arg.strip with
      | .struct _ fs =>
        let (h, s) := p.heap.lit [k]
        let q := { p with list, heap := h }.walkFields fs 0 s []
        .ok { q with pos := q.pos + 1 }
      | _ => .err

/-- The loop of `parseQuery` (rest.go:548-637). -/
def Parser.parseQueryParams (p : Parser) (ps : List Str) (args : List Ty) : R Parser :=
  match ps with
  | [] => .ok p
  | x :: xs =>
    (if x.head? = some '%' then p.destructure args
     else p.parseParam x args (.at false true)).bind fun p => p.parseQueryParams xs args

/-- `parseQuery` (rest.go:548-637) on what follows the question mark, if there is one
(rest.go:337-342). -/
def Parser.parseQuery (p : Parser) (query : Option Str) (args : List Ty) : R Parser :=
  match query with
  | none => .ok p
  | some q => p.parseQueryParams (split '&' q) args

/-- The texts between braces, or none if one is not closed (rest.go:708-716). -/
def braced (path : Str) : Option (List Str) :=
  let cs := (split '{' (path.drop 1)).tail
  if cs.all (fun c => has c '}') then some (cs.map (fun c => (cut '}' c).1)) else none

/-- `parsePath` (rest.go:700-724). -/
def Parser.parsePath (p : Parser) (path : Str) (args : List Ty) : R Parser :=
  match path with
  | [] => .ok p
  | c :: _ =>
    if c ≠ '/' then .err
    else if has path '{' then
      match braced path with
      | none => .err
      | some ps => p.parseParams ps args (.at true false)
    else .ok p

/-- `parseBody` (rest.go:455-478): the parameters from position `i` on; `p.fn.In(i)` panics
for parameters beyond the arguments. -/
def bodyParams (args : List Ty) (rules : List Str) :
    List Param → Nat → List Str → Heap → R (List Param × Heap)
  | [], _, _, h => .ok ([], h)
  | q :: qs, i, left, h =>
    if q.loc = Loc.body then
      match args[i]? with
      | none => .panic
      | some t =>
        let (h', s) := h.lit [i]
        if rules = [] then
          (bodyParams args rules qs (i + 1) left h').bind fun (qs, h) =>
            .ok ({ q with ty := some t, index := s } :: qs, h)
        else match left with
          | [] => .err
          | r :: left =>
            (bodyParams args rules qs (i + 1) left h').bind fun (qs, h) =>
              .ok ({ q with name := r, ty := some t, index := s } :: qs, h)
    else
      (bodyParams args rules qs (i + 1) left h).bind fun (qs, h) => .ok (q :: qs, h)

/-- `parseBody` (rest.go:455-478). -/
def Parser.parseBody (p : Parser) (args : List Ty) (rules : List Str) : R Parser :=
  (bodyParams args rules p.list 0 rules p.heap).bind fun (list, heap) =>
    .ok { p with list, heap }

/-- What `loadOperation` does with the second field of a tag and the argument rules
(rest.go:323-345): the path before the first question mark, then the query, then the body. -/
def parseTag (args : List Ty) (pathField : Str) (rules : List Str) : R Parser :=
  let c := cut '?' pathField
  ((newParser args).parsePath c.1 args).bind fun p =>
    (p.parseQuery (if c.2.2 then some c.2.1 else none) args).bind fun p =>
      p.parseBody args rules

end Verif.Rest
