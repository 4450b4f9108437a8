import Verif.Rest.ScanModel
/-!
# The content type text/plain: model

`contentTypes["text/plain"]` (`api/rest/mime.go:171-238`). What `fmt.Fprint` prints for a value that is not a list is given with the value. Texts are valid
UTF-8. `Fscan` is modelled for strings and integers of 64 bits.
-/
namespace Verif.Rest.Plain

abbrev Text := List Char

/-- An element of a slice: what `fmt` prints for it, and what its `MarshalText` returns if it has that method. -/
structure Elem where
  shown : Text
  marshal : Option Text
  deriving DecidableEq, Repr

/-- A value in a `map[string]any` (`mime.go:178-190`). -/
inductive Item where
  | nil
  | slice (es : List Elem)
  | other
  deriving DecidableEq, Repr

/-- A value as the encoder sees it. -/
inductive Val where
  | nil
  /-- a struct whose first field is a slice, exported or not (`mime.go:175-177`); `shown` is what fmt prints for the struct -/
  | sliceStruct (exported : Bool) (es : List Elem)
  /-- a `map[string]any`, and what `fmt` prints for it -/
  | mapping (items : List (Text × Item)) (shown : Text)
  /-- an `encoding.TextMarshaler` (`none`: it fails) -/
  | marshaler (text : Option Text)
  | slice (es : List Elem)
  | str (s : Text)
  | int (i : Int)
  | other (shown : Text)
  deriving DecidableEq, Repr

/-- What is written, or an error, or a panic. -/
inductive Res where
  | ok (body : Text)
  | error
  | panic
  deriving DecidableEq, Repr

/-- `sort.Strings` of the keys (`mime.go:183`), with the items: insertion sort. -/
def insert (k : Text × Item) : List (Text × Item) → List (Text × Item)
  | [] => [k]
  | l :: ls => if k.1 ≤ l.1 then k :: l :: ls else l :: insert k ls

/-- `sort.Strings` (`mime.go:183`). -/
def sort : List (Text × Item) → List (Text × Item)
  | [] => []
  | k :: ks => insert k (sort ks)

/-- The loop over the sorted keys (`mime.go:184-189`): the last slice; `reflect.TypeOf(nil).Kind()` panics (`none`). -/
def pick : Option (List Elem) → List (Text × Item) → Option (Option (List Elem))
  | found, [] => some found
  | _, (_, .nil) :: _ => none
  | _, (_, .slice es) :: rest => pick (some es) rest
  | found, (_, .other) :: rest => pick found rest

/-- The loop over a slice (`mime.go:201-221`): it asks whether the slice is a marshaler, not the element. -/
def lines : List Elem → Text
  | [] => []
  | e :: es => e.shown ++ '\n' :: lines es

/-- `Encode` (`mime.go:172-225`). -/
def encode : Val → Res
  | .nil => .panic
  | .sliceStruct exported es => if exported then .ok (lines es) else .panic
  | .mapping items shown =>
    match pick none (sort items) with
    | none => .panic
    | some (some es) => .ok (lines es)
    | some none => .ok shown
  | .marshaler (some t) => .ok t
  | .marshaler none => .error
  | .slice es => .ok (lines es)
  | .str s => .ok s
  | .int i => .ok (printInt i)
  | .other shown => .ok shown

/-- `isSpace` of `fmt` (used by `Fscan`, `mime.go:235`): the ranges of its table. -/
def isSpace (c : Char) : Bool :=
  let n := c.toNat
  (9 ≤ n && n ≤ 13) || n = 0x20 || n = 0x85 || n = 0xa0 || n = 0x1680 || (0x2000 ≤ n && n ≤ 0x200a) || n = 0x2028 || n = 0x2029 ||
    n = 0x202f || n = 0x205f || n = 0x3000

/-- `SkipSpace` (`mime.go:235`). -/
def skipSpace : Text → Text
  | [] => []
  | c :: cs => if isSpace c then skipSpace cs else c :: cs

/-- A word (`mime.go:235`). -/
def word : Text → Text
  | [] => []
  | c :: cs => if isSpace c then [] else c :: word cs

/-- `fmt.Fscan(r, &s)` (`mime.go:235`): the first word; an error at the end. -/
def scanStr (body : Text) : Option Text :=
  if skipSpace body = [] then none else some (word (skipSpace body))

/-- `fmt.Fscan(r, &i)` (`mime.go:235`). -/
def scanNum (body : Text) : Option Int := scanInt (skipSpace body)

/-- What `Decode` gives to an `encoding.TextUnmarshaler` (`mime.go:228-233`): `io.ReadFull` reads as much as the slice holds, and the slice
is nil. -/
def unmarshaled (_body : Text) : Text := []

/-- `Decode` into a slice (`mime.go:235`): `Fscan` cannot. -/
def scanSlice (_body : Text) : Option (List Text) := none

end Verif.Rest.Plain
