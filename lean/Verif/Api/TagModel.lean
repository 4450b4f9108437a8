import Verif.Api.DocModel
/-!
# Model of where the documentation of a field comes from (`api/api.go:448-482`)

All of `DocumentationOf`, with the reading of struct tags (`reflect.StructTag.Lookup`, which `api/api.go:464` and all
linkers call). How a quoted value is unquoted (`strconv.Unquote`) is a parameter, so that what is proved holds however it
is done.
-/
namespace Verif.Api.Tag
open Verif.Api

/-- The characters of a key (`StructTag.Lookup`, for `api/api.go:464`). -/
def isKey (c : Char) : Bool := ' ' < c && c ≠ ':' && c ≠ '"' && c ≠ '\x7f'

/-- What is between the quotes, and what is after them (`StructTag.Lookup`, for `api/api.go:464`). -/
def quoted : Str → Option (Str × Str)
  | [] => none
  | c :: s =>
    if c = '"' then some ([], s)
    else if c = '\\' then
      match s with
      | [] => none
      | d :: s' => (quoted s').map fun p => (c :: d :: p.1, p.2)
    else (quoted s).map fun p => (c :: p.1, p.2)

/-- `StructTag.Lookup` (for `api/api.go:464`), in at most so many turns of its loop. -/
def lookupIn (unquote : Str → Option Str) (key : Str) : Nat → Str → Option Str
  | 0, _ => none
  | n + 1, tag =>
    let tag := tag.dropWhile (· = ' ')
    let name := tag.takeWhile isKey
    match tag.dropWhile isKey with
    | ':' :: '"' :: rest =>
      if name = [] then none
      else
        match quoted rest with
        | none => none
        | some (value, rest) => if key = name then unquote value else lookupIn unquote key n rest
    | _ => none

/-- `StructTag.Lookup` (for `api/api.go:464`): each turn of its loop takes something from the tag. -/
def lookup (unquote : Str → Option Str) (key tag : Str) : Option Str := lookupIn unquote key tag.length tag

mutual
/-- A field (`reflect.StructField`, `api/api.go:451`): its tag, and its type if there is one (`api/err.go:78` leaves it
out). -/
inductive Field where
  | mk (tag : Str) (type : Option Ty)
/-- A type, as far as `DocumentationOf` looks at it: what the `Docs` method of its zero value returns, if it has one
(`api/api.go:470-474`), and the first field of a struct, if it is embedded (`api/api.go:475-479`). -/
inductive Ty where
  | mk (docs : Option Str) (embedded : Option Field)
end

/-- `DocumentationOf` (`api/api.go:451-482`). -/
def docsOf (unquote : Str → Option Str) : Field → Str
  | .mk tag type =>
    match documentationOf tag with
    | some text => text
    | none =>
      match lookup unquote ['d', 'o', 'c', 's'] tag with
      | some text => text
      | none =>
        match type with
        | none => []
        | some (.mk (some text) _) => text
        | some (.mk none none) => []
        | some (.mk none (some field)) => docsOf unquote field

end Verif.Api.Tag
