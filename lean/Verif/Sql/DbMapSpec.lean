import Verif.Sql.DbMapModel
import Verif.Sql.DbSpec

/-! Specification for C210: databases that do what sodium documents, and the operations of a map. -/
namespace Verif.Sql

/-- Scalars that compare equal only if they are the same (no floating point numbers that differ from themselves). -/
def Scalars.Lawful (S : Scalars) : Prop := ∀ g a b, S.eq g a b = true ↔ a = b

/-- A row stored in a database under the given key. -/
def RowOf (m : Opened) (i c : List Cell) : Row := List.zip ((m.index ++ m.value).map (·.1)) (i ++ c)

/-- A change of the value in the column of a name. -/
def setCell : List Col → List Cell → Col × Cell → List Cell
  | c :: cs, x :: xs, (d, y) => if c.1 = d.1 then y :: xs else x :: setCell cs xs (d, y)
  | _, xs, _ => xs

/-- Several changes, one after another. -/
def setCells (cols : List Col) (xs : List Cell) (mods : List (Col × Cell)) : List Cell := mods.foldl (setCell cols) xs

/-- What sodium documents of a database (sql/std/sodium/sql.go:15-46), as far as it is used: `rows` are the values stored
under each key; `Insert` adds a record or, if the flag allows it, overwrites it, and else reports a duplicate; `Search`,
`Delete` and `Update` with the range `[0, 1)` find, remove or change one of the records that meet the query, if there is
one, and report how many. -/
structure Documented {σ : Type} (S : Scalars) (db : Db σ) (m : Opened) (rows : σ → List Cell → Option (List Cell)) : Prop where
  insert_new : ∀ s i flag c, rows s i = none ∨ flag = true → ∃ s' n, db.insert s m i flag c = (s', n, none) ∧ n ≠ -1 ∧
    rows s' i = some c ∧ ∀ j, j ≠ i → rows s' j = rows s j
  insert_old : ∀ s i c, (rows s i).isSome → ∃ s' n e, db.insert s m i false c = (s', n, e) ∧ rows s' = rows s ∧
    (e = some .duplicate ∨ e = none ∧ n = -1)
  search_one : ∀ s es, .range 0 1 ∈ es →
    (∃ i c s', rows s i = some c ∧ everyMeets S (RowOf m i c) es ∧ db.search s m es = (s', [i ++ c], none) ∧ rows s' = rows s) ∨
    ((∀ i c, rows s i = some c → ¬ everyMeets S (RowOf m i c) es) ∧ ∃ s', db.search s m es = (s', [], none) ∧ rows s' = rows s)
  delete_one : ∀ s es, .range 0 1 ∈ es →
    (∃ i c s', rows s i = some c ∧ everyMeets S (RowOf m i c) es ∧ db.delete s m es = (s', 1, none) ∧ rows s' i = none ∧ ∀ j, j ≠ i → rows s' j = rows s j) ∨
    ((∀ i c, rows s i = some c → ¬ everyMeets S (RowOf m i c) es) ∧ ∃ s', db.delete s m es = (s', 0, none) ∧ rows s' = rows s)
  update_one : ∀ s es mods, .range 0 1 ∈ es →
    (∃ i c s', rows s i = some c ∧ everyMeets S (RowOf m i c) es ∧ db.update s m es mods = (s', 1, none) ∧
      rows s' i = some (setCells m.value c mods) ∧ ∀ j, j ≠ i → rows s' j = rows s j) ∨
    ((∀ i c, rows s i = some c → ¬ everyMeets S (RowOf m i c) es) ∧ ∃ s', db.update s m es mods = (s', 0, none) ∧ rows s' = rows s)

/-- The operations. A check is a list of conditions on the value; a patch is a list of assignments to parts of the value. -/
inductive DOp where
  | insert (k : Val) (upsert : Bool) (v : Val)
  | lookup (k : Val)
  | delete (k : Val) (check : Option (List GCond))
  | mutate (k : Val) (check : Option (List GCond)) (patch : List (List Nat × Val))

/-- The key of an operation. -/
def DOp.key : DOp → Val
  | .insert k _ _ => k
  | .lookup k => k
  | .delete k _ => k
  | .mutate k _ _ => k

/-- The value after the assignments. -/
def Val.puts (v : Val) (patch : List (List Nat × Val)) : Val := patch.foldl (fun v a => v.put a.1 a.2) v

/-- A check passes: there is none, or all its conditions hold. -/
def Checked (S : Scalars) (kt vt : Ty) (k v : Val) : Option (List GCond) → Prop
  | none => True
  | some cs => everyHolds S kt vt k v cs

/-- The map changed at one key. -/
def ChangedAt (f f' : Val → Option Val) (k : Val) (o : Option Val) : Prop := f' k = o ∧ ∀ k', k' ≠ k → f' k' = f k'

/-- What each operation does to a map and answers. -/
def MapStep (S : Scalars) (kt vt : Ty) (f : Val → Option Val) (f' : Val → Option Val) (a : DAns) : DOp → Prop
  | .insert k upsert v =>
    ((f k = none ∨ upsert = true) ∧ a = .ok ∧ ChangedAt f f' k (some v)) ∨ ((f k).isSome ∧ upsert = false ∧ a = .duplicate ∧ f' = f)
  | .lookup k => f' = f ∧ ((∃ v, f k = some v ∧ a = .found v) ∨ (f k = none ∧ a = .missing))
  | .delete k check =>
    (∃ v, f k = some v ∧ Checked S kt vt k v check ∧ a = .did true ∧ ChangedAt f f' k none) ∨
    ((∀ v, f k = some v → ¬ Checked S kt vt k v check) ∧ a = .did false ∧ f' = f)
  | .mutate k check patch =>
    (∃ v, f k = some v ∧ Checked S kt vt k v check ∧ a = .did true ∧ ChangedAt f f' k (some (v.puts patch))) ∨
    ((∀ v, f k = some v → ¬ Checked S kt vt k v check) ∧ a = .did false ∧ f' = f)

/-- The answers of a sequence of operations on a map. -/
inductive MapRun (S : Scalars) (kt vt : Ty) : (Val → Option Val) → List DOp → List DAns → Prop
  | nil (f) : MapRun S kt vt f [] []
  | cons {f f' a o os as} : MapStep S kt vt f f' a o → MapRun S kt vt f' os as → MapRun S kt vt f (o :: os) (a :: as)

mutual
/-- The condition looks at the value only: a check function is not given the key. -/
def GCond.ValueOnly : GCond → Prop
  | .const _ => True
  | .equals r _ | .cmp _ r _ | .str _ r _ | .empty r => ∃ p, r = .val p
  | .not c => c.ValueOnly
  | .any cs => allValueOnly cs
  | .all cs => allValueOnly cs
/-- The same for every condition. -/
def allValueOnly : List GCond → Prop
  | [] => True
  | c :: cs => c.ValueOnly ∧ allValueOnly cs
end

/-- The operation type checks: key, value, check and assignments are of the right types, and assigned parts are stored. -/
def DOp.Proper (kt vt : Ty) : DOp → Prop
  | .insert k _ v => HasTy kt k ∧ HasTy vt v
  | .lookup k => HasTy kt k
  | .delete k check => HasTy kt k ∧ ∀ cs, check = some cs → allValueOnly cs ∧ allProper kt vt cs
  | .mutate k check patch => HasTy kt k ∧ (∀ cs, check = some cs → allValueOnly cs ∧ allProper kt vt cs) ∧
      ∀ a ∈ patch, ∃ t, vt.part a.1 = some t ∧ HasTy t a.2 ∧ HasColumn t

/-- The modifications that a patch function makes of its assignments. -/
def patchMods (mv : Mirror) (vt : Ty) : List (List Nat × Val) → Option (List (Col × Cell))
  | [] => some []
  | a :: as =>
    match vt.part a.1, mirrorAt mv a.1, patchMods mv vt as with
    | some t, some cs, some l => (dbSet cs t a.2).map fun x => x ++ l
    | _, _, _ => none

/-- The operation on a map backed by a database. `isZero` tells whether its key is the zero value. -/
def DOp.run {σ : Type} (db : Db σ) (m : Opened) (mk mv : Mirror) (kt vt : Ty) (isZero : Val → Bool) (s : σ) : DOp → Option (σ × DAns)
  | .insert k u v => dbMapInsert db m kt vt s (isZero k) k u v
  | .lookup k => dbMapLookup db m mk kt vt s (isZero k) k
  | .delete k check => dbMapDelete db m mk mv kt s (isZero k) k (check.map fun cs mv => buildAll mk mv kt vt cs)
  | .mutate k check patch =>
    dbMapMutate db m mk mv kt s (isZero k) k (check.map fun cs mv => buildAll mk mv kt vt cs) fun mv => patchMods mv vt patch

/-- The answers of a sequence of operations. -/
def runAll {σ : Type} (db : Db σ) (m : Opened) (mk mv : Mirror) (kt vt : Ty) (isZero : Val → Bool) : σ → List DOp → Option (List DAns)
  | _, [] => some []
  | s, o :: os =>
    match o.run db m mk mv kt vt isZero s with
    | none => none
    | some (s', a) => (runAll db m mk mv kt vt isZero s' os).map fun as => a :: as

end Verif.Sql
