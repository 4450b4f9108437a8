import Verif.Sql.DbModel

/-
Model of `sql.Map` backed by a database: `Insert`, `Lookup`, `Delete` and `Mutate` of sql/map.go:171-210, 331-374, 441-465,
outside a transaction.

Simplifications, stated once: each call opens its own transaction, sends one job and closes it (`manage`, `tx <- job`,
`close(tx)`, `Wait`), so it is modelled as one call of the database; the context is not cancelled. `isZero` is `key == zero`.
The modifications of a patch are one list. A panic is `none`. Types with an `Interface` or `Randomize` method are left out.
-/
namespace Verif.Sql

/-- An error of the database (sql/map.go:200-204). -/
inductive DbErr where
  | duplicate | other
  deriving DecidableEq, Repr

/-- The results of the jobs of a database, by its state (`sodium.Database`, sql/std/sodium/sql.go:15-46). -/
structure Db (σ : Type) where
  insert : σ → Opened → List Cell → Bool → List Cell → σ × Int × Option DbErr
  search : σ → Opened → List SExpr → σ × List (List Cell) × Option DbErr
  delete : σ → Opened → List SExpr → σ × Int × Option DbErr
  update : σ → Opened → List SExpr → List (Col × Cell) → σ × Int × Option DbErr

/-- What a call of the map answers (sql/map.go:177-210, 331-353, 357-374, 445-465). -/
inductive DAns where
  | ok | duplicate | invalidKey | failed
  | found (v : Val)
  | missing
  | did (b : Bool)

variable {σ : Type}

/-- `(*Map).Insert`, sql/map.go:177-210. -/
def dbMapInsert (db : Db σ) (m : Opened) (kt vt : Ty) (s : σ) (isZero : Bool) (key : Val) (flag : Bool) (value : Val) : Option (σ × DAns) :=
  if isZero then some (s, .invalidKey)
  else match valuesOf kt key, valuesOf vt value with
    | some i, some c =>
      match db.insert s m i flag c with
      | (s', _, some .duplicate) => some (s', .duplicate)
      | (s', _, some .other) => some (s', .failed)
      | (s', n, none) => if n = -1 then some (s', .duplicate) else some (s', .ok)
    | _, _ => none

/-- The query `Index(k).Equals(key), Slice(0, 1)` of sql/map.go:341-346, 363-366 and 450-453, followed by the expressions of
the check, if there is one. `mk` is what is registered for the key's sentinel. -/
def keyQuery (mk : Mirror) (kt : Ty) (key : Val) (check : Option (List SExpr)) : Option (List SExpr) :=
  (dbIndex (mirrorAt mk []) false kt key).map fun e => [e, .range 0 1] ++ check.getD []

/-- Reading the values of a result, sql/map.go:296-301: the first are those of the key. -/
def decodeRow (m : Opened) (kt vt : Ty) (values : List Cell) : Option (Val × Val) :=
  match decode kt (values.take m.index.length), decode vt (values.drop m.index.length) with
  | some (k, _), some (v, _) => some (k, v)
  | _, _ => none

/-- `(*Map).Lookup`, sql/map.go:331-353: the first result of the search. -/
def dbMapLookup (db : Db σ) (m : Opened) (mk : Mirror) (kt vt : Ty) (s : σ) (isZero : Bool) (key : Val) : Option (σ × DAns) :=
  if isZero then some (s, .invalidKey)
  else match keyQuery mk kt key none with
    | none => none
    | some es =>
      match db.search s m es with
      | (s', values :: _, _) => (decodeRow m kt vt values).map fun r => (s', .found r.2)
      | (s', [], none) => some (s', .missing)
      | (s', [], some _) => some (s', .failed)

/-- The end of `Delete` and `Mutate`, sql/map.go:370-373 and 461-464. -/
def counted (r : σ × Int × Option DbErr) : σ × DAns :=
  match r with
  | (s, _, some _) => (s, .failed)
  | (s, n, none) => (s, .did (n > 0))

/-- `(*Map).Delete` through `UnsafeDelete`, sql/map.go:357-410. `check` gives the expressions the check function returns when
called with the value's sentinel. -/
def dbMapDelete (db : Db σ) (m : Opened) (mk mv : Mirror) (kt : Ty) (s : σ) (isZero : Bool) (key : Val) (check : Option (Mirror → Option (List SExpr))) :
    Option (σ × DAns) :=
  if isZero then some (s, .invalidKey)
  else match check with
    | none => (keyQuery mk kt key none).map fun es => counted (db.delete s m es)
    | some f => (f mv).bind fun es => (keyQuery mk kt key (some es)).map fun es => counted (db.delete s m es)

/-- `(*Map).Mutate` through `Update`, sql/map.go:414-465. `patch` gives the modifications the patch function returns. -/
def dbMapMutate (db : Db σ) (m : Opened) (mk mv : Mirror) (kt : Ty) (s : σ) (isZero : Bool) (key : Val) (check : Option (Mirror → Option (List SExpr)))
    (patch : Mirror → Option (List (Col × Cell))) : Option (σ × DAns) :=
  if isZero then some (s, .invalidKey)
  else (patch mv).bind fun mods =>
    match check with
    | none => (keyQuery mk kt key none).map fun es => counted (db.update s m es mods)
    | some f => (f mv).bind fun es => (keyQuery mk kt key (some es)).map fun es => counted (db.update s m es mods)

end Verif.Sql
