import Verif.Jrpc.Model
/-!
# JSON-RPC: structs: model

The struct case of `(*Decoder).decode` (`api/jrpc/dec.go:351-449`) on a stream of bytes, and the names of fields in the encoder (`api/jrpc/enc.go:138-152`). The
decoders of the fields are parameters, so that what is proved holds for fields of any type, structs among them.
-/
namespace Verif.Jrpc.Obj

/-- Decoding into a variable that has a value (`dec.go:91`). -/
abbrev Decoder := Val → List UInt8 → Except Err (Val × List UInt8)

/-- A field of a struct: its Go name, its json tag (empty if it has none), whether it is exported, and how values of its type are decoded
(`dec.go:362-366`). -/
structure Field where
  goName : List UInt8
  tag : List UInt8
  exported : Bool
  dec : Decoder

/-- The part of a tag before its first comma (`dec.go:367-371`). -/
def beforeComma (tag : List UInt8) : List UInt8 := tag.takeWhile (· ≠ 44)

/-- The name a field is decoded by, `none` if it is skipped (`dec.go:363-375`). -/
def nameOf (f : Field) : Option (List UInt8) :=
  if f.tag = [] then some f.goName
  else if beforeComma f.tag = [45] then none
  else some (beforeComma f.tag)

/-- The name a field is encoded by (`enc.go:139-147`). -/
def encName (f : Field) : List UInt8 := if beforeComma f.tag = [] then f.goName else beforeComma f.tag

/-- `fields[key]`: the index of the last field with this name (`dec.go:361-378`, `:420`). -/
def find (key : List UInt8) : Nat → List Field → Option Nat
  | _, [] => none
  | i, f :: fs => match find key (i + 1) fs with
    | some j => some j
    | none => if nameOf f = some key then some i else none

/-- Decoding into a nil `interface{}` (`dec.go:427-431`, `:534-576`): only the test for null succeeds. -/
def skipValue (s : List UInt8) : Except Err (List UInt8) := do
  let s ← skipWs s
  let (null, s) ← nullTest s
  if null then .ok s else .error .notObject

/-- The values of a struct's fields by position, with field `i` set. -/
def setField (i : Nat) (v : Val) (vs : List Val) : List Val := vs.set i v

/-- Decoding into field `i` (`dec.go:422-424`). `panicked`: the field is not exported, reflect refuses to set it (simplified: also when the value
cannot be decoded). -/
def intoField (fields : List Field) (panicked : Err) (i : Nat) (acc : List Val) (s : List UInt8) : Except Err (List Val × List UInt8) :=
  match fields[i]?, acc[i]? with
  | some f, some old => if f.exported then (f.dec old s).map fun r => (setField i r.1 acc, r.2) else .error panicked
  | _, _ => .error panicked

/-- The loop over members (`dec.go:395-449`). The number bounds the iterations. -/
def memberLoop (fields : List Field) (panicked : Err) : Nat → List Val → List UInt8 → Except Err (List Val × List UInt8)
  | 0, _, _ => .error .eof
  | n + 1, acc, s => do
    let s ← skipWs s
    let (k, s) ← decString s
    let s ← skipWs s
    match s with
    | [] => .error .eof
    | c :: s =>
      if c ≠ 58 then .error .noColon else do
      let s ← skipWs s
      let (acc, s) ← match find k 0 fields with
        | some i => intoField fields panicked i acc s
        | none => (skipValue s).map fun s => (acc, s)
      let s ← skipWs s
      match s with
      | [] => .error .eof
      | c :: t =>
        if c = 125 then .ok (acc, t)
        else if c = 44 then memberLoop fields panicked n acc t
        else .error .noComma

/-- The struct case (`dec.go:351-449`): after an empty object its closing brace is left in the stream. -/
def decStruct (fields : List Field) (panicked : Err) (old : List Val) (s : List UInt8) : Except Err (List Val × List UInt8) := do
  let s ← skipWs s
  match s with
  | [] => .error .eof
  | c :: t =>
    if c ≠ 123 then .error .notObject else do
    let t ← skipWs t
    if t.head? = some 125 then .ok (old, t)
    else memberLoop fields panicked t.length old t

/-- The fields of a struct with the values `vs` (`reflect.Value.Field`, `dec.go:422`). -/
def withValues (fs : List (List UInt8 × Bool × Val)) (vs : List Val) : List (List UInt8 × Bool × Val) := List.zipWith (fun f v => (f.1, f.2.1, v)) fs vs

/-- The same as a decoder of values (`dec.go:351-449`). -/
def decStructVal (fields : List Field) (panicked : Err) : Decoder
  | .struct fs, s => (decStruct fields panicked (fs.map (·.2.2)) s).map fun r => (.struct (withValues fs r.1), r.2)
  | _, _ => .error panicked

end Verif.Jrpc.Obj
