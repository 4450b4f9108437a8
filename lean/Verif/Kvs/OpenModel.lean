import Verif.Kvs.Spec

/-!
# Opened key-value schemas: model

`Open` (`kvs/kvs.go:113-129`) gives each map of a schema the format of its tag; `Map.open` (`kvs/kvs.go:17-54`) passes it to the
database with every call. The database is a map from format and key (`kvs/kvs.go:105-111`) whose calls do not fail (failures are
C58); keys and values are of one type each.
-/
namespace Verif.Kvs.Open
open Verif.Sql (load store delete)
variable {K V : Type} [DecidableEq K]

/-- The format of a map: the text of its `kvs` tag, empty without one (`kvs/kvs.go:103`, `:121`). -/
abbrev Format := List Char

/-- A field of the schema: whether it is exported, whether it is a `Map` and its tag (`kvs/kvs.go:117-127`). -/
structure Field where
  exported : Bool
  isMap : Bool
  tag : Format
  deriving DecidableEq

/-- The format a field is opened with; others keep nil functions (`kvs/kvs.go:119-127`). -/
def opened (f : Field) : Option Format :=
  if f.exported = false then none
  else if f.isMap then some f.tag
  else none

/-- The database's records (`kvs/kvs.go:105-111`). -/
abbrev Records (K V : Type) := List ((Format × K) × V)

/-- What a call returns: nothing, or a value and whether it was there (`kvs/kvs.go:59-70`, `:19-35`). -/
inductive Answer (V : Type) where
  | done
  | value (v : V) (ok : Bool)
  | panic
  deriving DecidableEq

/-- The insert loop of `Commit` (`kvs/kvs.go:25-29`). -/
def inserts (format : Format) (db : Records K V) (ps : List (K × V)) : Records K V :=
  ps.foldl (fun db p => store db (format, p.1) p.2) db

/-- The delete loop of `Commit` (`kvs/kvs.go:30-34`). -/
def deletes (format : Format) (db : Records K V) (ks : List K) : Records K V := ks.foldl (fun db k => delete db (format, k)) db

/-- A call of an opened map (`kvs/kvs.go:19-36`, `:59-70`). -/
def callMap (zero : V) (format : Format) (db : Records K V) : Call K V → Records K V × Answer V
  | .get k =>
    match load db (format, k) with
    | none => (db, .value zero false)
    | some v => (db, .value v true)
  | .set k v => (deletes format (inserts format db [(k, v)]) [], .done)
  | .del k => (deletes format (inserts format db []) [k], .done)
  | .commit _ order del => (deletes format (inserts format db order) del, .done)

/-- A call of field `i` of the schema (`kvs/kvs.go:113-129`): the functions of a field that was not opened are nil. -/
def callField (zero : V) (schema : List Field) (db : Records K V) (i : Nat) (c : Call K V) : Records K V × Answer V :=
  match schema[i]? with
  | none => (db, .panic)
  | some f =>
    match opened f with
    | none => (db, .panic)
    | some format => callMap zero format db c

/-- The answers of a history of calls (`kvs/kvs.go:113-129`). -/
def answers (zero : V) (schema : List Field) : Records K V → List (Nat × Call K V) → List (Answer V)
  | _, [] => []
  | db, (i, c) :: cs => (callField zero schema db i c).2 :: answers zero schema (callField zero schema db i c).1 cs

end Verif.Kvs.Open
