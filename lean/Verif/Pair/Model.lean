/-!
# Model of paired APIs (api/pair/pair.go)

Values of the two structs are trees. A pointer that a mapping gives to `Bool`, `Int`, ..., `Slice` or `Map` is a path into
one of the two structs, or the pointer that `Const` returns. The static types of Go, which make both sides of a pair fit, are
hypotheses of the theorems. A mapping that does not return the same pairs whenever it is called, or that does more than
return pairs, is not modelled. Keys of maps are scalars.
-/
namespace Verif.Pair

/-- A text (`the field names of pair.go:78-82`). -/
abbrev Str := List Char

/-- A Go value. Slices and maps can be nil (`what the pointers of pair.go:84-312 point to`). -/
inductive Val where
  | scalar (n : Nat)
  | slice (o : Option (List Val))
  | map (o : Option (List (Nat × Val)))
  | struct (fs : List Val)
deriving Repr

/-- A pointer: to a part of the struct (the indices of the fields that lead to it), or the one that `Const(v)` returns
(pair.go:310-312). -/
inductive Loc where
  | path (p : List Nat)
  | const (v : Val)

/-- The part of a value at a path (`*from` and `*into` in pair.go:95-96 and the like). -/
def get : Val → List Nat → Val
  | v, [] => v
  | .struct fs, i :: p => get ((fs[i]?).getD (.scalar 0)) p
  | v, _ :: _ => v

/-- The value with the part at a path replaced (`*from` and `*into` in pair.go:95-96 and the like). -/
def set : Val → List Nat → Val → Val
  | _, [], w => w
  | .struct fs, i :: p, w => .struct (fs.set i (set ((fs[i]?).getD (.scalar 0)) p w))
  | v, _ :: _, _ => v

/-- `*ptr` (`pair.go:95-96`). -/
def Loc.read : Loc → Val → Val
  | .path p, v => get v p
  | .const c, _ => c

/-- `*ptr = w`; the constant is a variable of its own, which nothing reads afterwards (`pair.go:95-96, 310-312`). -/
def Loc.write : Loc → Val → Val → Val
  | .path p, v, w => set v p w
  | .const _, v, _ => v

/-- `Field` (pair.go:84-90) by how it was made: `copy` by `Bool`, `Int`, ..., `String` (pair.go:92-250, 300-308), `slice` by
`Slice` (pair.go:253-270), `map` by `Map` (pair.go:272-298). The zero values are those of the element types. -/
inductive Field where
  | copy (from_ into : Loc)
  | slice (from_ into : Loc) (zeroFrom zeroInto : Val) (rule : Field)
  | map (from_ into : Loc) (zeroFromKey zeroIntoKey : Nat) (zeroFromVal zeroIntoVal : Val) (keyRule valRule : Field)

/-- `isFrom` (pair.go:88). -/
def Field.isFrom : Field → Loc
  | .copy f _ => f
  | .slice f _ _ _ _ => f
  | .map f _ _ _ _ _ _ _ => f

/-- `isInto` (pair.go:89). -/
def Field.isInto : Field → Loc
  | .copy _ i => i
  | .slice _ i _ _ _ => i
  | .map _ i _ _ _ _ _ _ => i

/-- The elements of a slice (`pair.go:257, 263`). -/
def Val.elems : Val → List Val
  | .slice (some vs) => vs
  | .slice none => []
  | .scalar _ => []
  | .map _ => []
  | .struct _ => []

/-- The entries of a map, in the order of an iteration (`pair.go:281, 289`). -/
def Val.entries : Val → List (Nat × Val)
  | .map (some kvs) => kvs
  | .map none => []
  | .scalar _ => []
  | .slice _ => []
  | .struct _ => []

/-- `m[k] = v` (`pair.go:284, 292`). -/
def mapSet (m : List (Nat × Val)) (k : Nat) (v : Val) : List (Nat × Val) :=
  match m with
  | [] => [(k, v)]
  | (k', v') :: rest => if k' = k then (k, v) :: rest else (k', v') :: mapSet rest k v

/-- The loop of `Map` (pair.go:280-285, 288-293): what the rules write goes to variables that are not read; each turn sets
the zero key to the zero value. -/
def mapLoop (zeroKey : Nat) (zeroVal : Val) : List (Nat × Val) → List (Nat × Val) → List (Nat × Val)
  | acc, [] => acc
  | acc, _ :: rest => mapLoop zeroKey zeroVal (mapSet acc zeroKey zeroVal) rest

/-- `toInto` (pair.go:95, 255-260, 279-286 and the like): what the second struct is afterwards. -/
def Field.toInto : Field → Val → Val → Val
  | .copy fp ip, f, i => ip.write i (fp.read f)
  | .slice fp ip _ zi rule, f, i => ip.write i (.slice (some ((fp.read f).elems.map fun x => rule.toInto x zi)))
  | .map fp ip _ zk _ zv _ _, f, i => ip.write i (.map (some (mapLoop zk zv [] (fp.read f).entries)))

/-- `toFrom` (pair.go:96, 261-266, 287-294 and the like): what the first struct is afterwards. -/
def Field.toFrom : Field → Val → Val → Val
  | .copy fp ip, i, f => fp.write f (ip.read i)
  | .slice fp ip zf _ rule, i, f => fp.write f (.slice (some ((ip.read i).elems.map fun x => rule.toFrom x zf)))
  | .map fp ip zk _ zv _ _ _, i, f => fp.write f (.map (some (mapLoop zk zv [] (ip.read i).entries)))

/-- The first function that `Make` returns (pair.go:23-28); `zero` is the zero value of the second struct. -/
def toInto (mapping : List Field) (zero : Val) (f : Val) : Val :=
  mapping.foldl (fun i m => m.toInto f i) zero

/-- The second function that `Make` returns (pair.go:29-34); `zero` is the zero value of the first struct. -/
def toFrom (mapping : List Field) (zero : Val) (i : Val) : Val :=
  mapping.foldl (fun f m => m.toFrom i f) zero

/-! ## Errors -/

/-- An error that is an `Error` (pair.go:78-82): its field name, and the error that `WithFieldNameSetTo` returns. -/
structure FieldErr (E : Type) where
  fieldName : Str
  withName : Str → E

/-- A field of a struct type: its name and whether it is exported, without which `Interface` of its address panics
(`pair.go:58-65`). -/
structure SField where
  name : Str
  exported : Bool
deriving DecidableEq, Repr

/-- The last of the registered functions that converts the error (pair.go:41-45). -/
def convert {E : Type} (registry : List (E → Option (FieldErr E))) (e : E) : Option (FieldErr E) :=
  registry.foldl (fun acc fn => match fn e with | some c => some c | none => acc) none

/-- Is the pointer the address of field `i`, with its type (pair.go:62, 65)? -/
def Loc.isField : Loc → Nat → Bool
  | .path p, i => p = [i]
  | .const _, _ => false

/-- What a loop does: goes on, returns a value, or panics (`pair.go:58-72`). -/
inductive Step (α : Type) where
  | next
  | ret (a : α)
  | panic

/-- The loop over the fields of the first struct (pair.go:63-68), from index `i` on. -/
def fromLoop {E : Type} (he : FieldErr E) (loc : Loc) : Nat → List SField → Step E
  | _, [] => .next
  | i, s :: rest =>
    if s.exported then if loc.isField i then .ret (he.withName s.name) else fromLoop he loc (i + 1) rest
    else .panic

/-- The loop over the pairs (pair.go:61-70) for field `j` of the second struct; the fields of a first type that is not a
struct cannot be counted. -/
def pairLoop {E : Type} (he : FieldErr E) (from_ : Option (List SField)) (j : Nat) (s : SField) : List Field → Step E
  | [] => .next
  | m :: rest =>
    if s.exported then
      if m.isInto.isField j then
        match from_ with
        | none => .panic
        | some fs =>
          match fromLoop he m.isFrom 0 fs with
          | .next => pairLoop he from_ j s rest
          | .ret e => .ret e
          | .panic => .panic
      else pairLoop he from_ j s rest
    else .panic

/-- The loop over the fields of the second struct (pair.go:58-72), from index `j` on. -/
def intoLoop {E : Type} (he : FieldErr E) (from_ : Option (List SField)) (mapping : List Field) : Nat → List SField → Step E
  | _, [] => .next
  | j, s :: rest =>
    if s.name = he.fieldName then
      match pairLoop he from_ j s mapping with
      | .next => intoLoop he from_ mapping (j + 1) rest
      | .ret e => .ret e
      | .panic => .panic
    else intoLoop he from_ mapping (j + 1) rest

/-- The third function that `Make` returns (pair.go:35-74). `asError` is the type assertion `err.(Error)`; `from_` and `into`
are the fields of the two types, if they are structs. The outer `none` is a panic, the inner one the nil error. -/
def wrap {E : Type} (asError : E → Option (FieldErr E)) (registry : List (E → Option (FieldErr E)))
    (from_ into : Option (List SField)) (mapping : List Field) : Option E → Option (Option E)
  | none => some none
  | some e =>
    match (asError e).or (convert registry e) with
    | none => some (some e)
    | some he =>
      match into with
      | none => none
      | some fs =>
        match intoLoop he from_ mapping 0 fs with
        | .next => some (some e)
        | .ret e' => some (some e')
        | .panic => none

end Verif.Pair
