import Verif.Sql.DbModel
import Verif.Sql.WalkSpec

/-! Specification for C209: what a condition means to the author of a query, and what the expressions handed to a database
mean there (the documentation of sodium). -/
namespace Verif.Sql

/-- How scalars compare: `==`, `<=` and `<` of Go. The database is taken to compare the values of a column in the same way.
Nothing is assumed of them (so a floating point number may differ from itself). -/
structure Scalars where
  eq : Tag → Atom → Atom → Bool
  le : Tag → Atom → Atom → Bool
  lt : Tag → Atom → Atom → Bool

/-- The zero value of each kind of column. -/
def zeroOf : Tag → Atom
  | .bool => .bool false
  | .float32 | .float64 | .string | .bytes | .time => .opaque []
  | _ => .int 0

/-- The column type of a scalar. -/
def columnType : Kind → Tag
  | .bool => .bool | .int8 => .int8 | .int16 => .int16 | .int32 => .int32 | .int64 | .int => .int64
  | .uint8 => .uint8 | .uint16 => .uint16 | .uint32 => .uint32 | .uint64 | .uint | .uintptr => .uint64
  | .float32 => .float32 | .float64 => .float64 | .string => .string | .bytes => .bytes | .time => .time

/-- The kinds that `Where` accepts. -/
def Numeric : Kind → Prop
  | .bool | .string | .bytes | .time => False
  | _ => True

/-! ### What the author means -/

/-- A pointer into the key or the value. -/
inductive Ref where
  | key (p : List Nat)
  | val (p : List Nat)

/-- A condition as written in a query. `const` is one that does not look at the record. -/
inductive GCond where
  | const (b : Bool)
  | equals (r : Ref) (x : Val)
  | cmp (op : WhereOp) (r : Ref) (x : Atom)
  | str (op : MatchOp) (r : Ref) (s : List Nat)
  | empty (r : Ref)
  | not (c : GCond)
  | any (cs : List GCond)
  | all (cs : List GCond)

mutual
/-- Go's `==` on values of a type: structs and arrays are equal if all their parts are. -/
def goEq (S : Scalars) : Ty → Val → Val → Prop
  | .scalar k, .scalar a, .scalar b => S.eq (columnType k) a b = true
  | .struct fs, .many vs, .many ws => goEqFields S fs vs ws
  | .array _ t, .many vs, .many ws => vs.length = ws.length ∧ ∀ (i : Nat) (v w : Val), vs[i]? = some v → ws[i]? = some w → goEq S t v w
  | _, _, _ => False
/-- The same for the fields of a struct. -/
def goEqFields (S : Scalars) : Fields → List Val → List Val → Prop
  | .nil, [], [] => True
  | .cons _ t rest, v :: vs, w :: ws => goEq S t v w ∧ goEqFields S rest vs ws
  | _, _, _ => False
end

/-- The part a pointer points to, and its type. -/
def Ref.target (kt vt : Ty) (k v : Val) : Ref → Option (Ty × Val)
  | .key p => (kt.part p).bind fun t => (k.part p).map fun x => (t, x)
  | .val p => (vt.part p).bind fun t => (v.part p).map fun x => (t, x)

/-- The comparison that each operation stands for. -/
def WhereOp.Holds (S : Scalars) (g : Tag) (a b : Atom) : WhereOp → Prop
  | .min => S.le g b a = true
  | .max => S.le g a b = true
  | .moreThan => S.lt g b a = true
  | .lessThan => S.lt g a b = true

/-- The test of strings (as bytes) that each operation stands for. -/
def MatchOp.Holds (s x : List Nat) : MatchOp → Prop
  | .contains => x <:+: s
  | .hasPrefix => x <+: s
  | .hasSuffix => x <:+ s

mutual
/-- Whether a record meets a condition. -/
def GCond.Holds (S : Scalars) (kt vt : Ty) (k v : Val) : GCond → Prop
  | .const b => b = true
  | .equals r x => ∃ t w, r.target kt vt k v = some (t, w) ∧ goEq S t w x
  | .cmp op r x => ∃ q a, r.target kt vt k v = some (.scalar q, .scalar a) ∧ op.Holds S (columnType q) a x
  | .str op r s => ∃ q b, r.target kt vt k v = some (.scalar q, .scalar (.opaque b)) ∧ op.Holds b s
  | .empty r => ∃ t w, r.target kt vt k v = some (t, w) ∧ goEq S t w (zeroVal t)
  | .not c => ¬ c.Holds S kt vt k v
  | .any cs => someHolds S kt vt k v cs
  | .all cs => everyHolds S kt vt k v cs
/-- Some condition holds. -/
def someHolds (S : Scalars) (kt vt : Ty) (k v : Val) : List GCond → Prop
  | [] => False
  | c :: cs => c.Holds S kt vt k v ∨ someHolds S kt vt k v cs
/-- Every condition holds. -/
def everyHolds (S : Scalars) (kt vt : Ty) (k v : Val) : List GCond → Prop
  | [] => True
  | c :: cs => c.Holds S kt vt k v ∧ everyHolds S kt vt k v cs
end

/-! ### What the database sees -/

/-- A row: the value in each column, by the column's name. -/
abbrev Row := List (List Char × Cell)

/-- The value in the column of a name. -/
def Row.cell : Row → List Char → Option Cell
  | [], _ => none
  | (n, x) :: r, m => if n = m then some x else Row.cell r m

/-- The cell equals a value of the same type. -/
def Cell.same (S : Scalars) (a b : Cell) : Prop := a.1 = b.1 ∧ S.eq a.1 a.2 b.2 = true

mutual
/-- Whether a row meets an expression. `Order` and `Range` are not conditions. -/
def SExpr.Meets (S : Scalars) (r : Row) : SExpr → Prop
  | .value b => b = true
  | .index c x => ∃ y, r.cell c.1 = some y ∧ y.same S x
  | .wher op c x => ∃ y, r.cell c.1 = some y ∧ y.1 = x.1 ∧ op.Holds S y.1 y.2 x.2
  | .mtch op c s => ∃ g b, r.cell c.1 = some (g, .opaque b) ∧ op.Holds b s
  | .order _ _ => True
  | .range _ _ => True
  | .empty c => ∃ y, r.cell c.1 = some y ∧ S.eq y.1 y.2 (zeroOf y.1) = true
  | .avoid e => ¬ e.Meets S r
  | .cases es => someMeets S r es
  | .group es => everyMeets S r es
/-- The row meets some expression. -/
def someMeets (S : Scalars) (r : Row) : List SExpr → Prop
  | [] => False
  | e :: es => e.Meets S r ∨ someMeets S r es
/-- The row meets every expression. -/
def everyMeets (S : Scalars) (r : Row) : List SExpr → Prop
  | [] => True
  | e :: es => e.Meets S r ∧ everyMeets S r es
end

/-- The row in which a record is stored: the columns of the key, then those of the value. -/
def rowOf (index value : List Col) (kt vt : Ty) (k v : Val) : Option Row :=
  match valuesOf kt k, valuesOf vt v with
  | some xs, some ys => some (List.zip ((index ++ value).map (·.1)) (xs ++ ys))
  | _, _ => none

/-! ### From one to the other -/

/-- The columns registered for a pointer. -/
def Ref.columns (mk mv : Mirror) : Ref → Option (List Col)
  | .key p => mirrorAt mk p
  | .val p => mirrorAt mv p

/-- The type of what a pointer points to. -/
def Ref.type (kt vt : Ty) : Ref → Option Ty
  | .key p => kt.part p
  | .val p => vt.part p

/-- The kind of a scalar. -/
def Ty.kind : Ty → Option Kind
  | .scalar k => some k
  | _ => none

mutual
/-- The expression the library builds when the query function is called with the sentinels. -/
def GCond.build (mk mv : Mirror) (kt vt : Ty) : GCond → Option SExpr
  | .const b => some (.value b)
  | .equals r x => (r.type kt vt).bind fun t => dbIndex (r.columns mk mv) false t x
  | .cmp op r x => ((r.type kt vt).bind Ty.kind).bind fun k => dbWhere (r.columns mk mv) false op k x
  | .str op r s => dbMatch (r.columns mk mv) false op s
  | .empty r => dbEmpty (r.columns mk mv) false
  | .not c => (c.build mk mv kt vt).map dbAvoid
  | .any cs => (buildAll mk mv kt vt cs).map dbCases
  | .all cs => (buildAll mk mv kt vt cs).map dbMerge
/-- The expressions of several conditions. -/
def buildAll (mk mv : Mirror) (kt vt : Ty) : List GCond → Option (List SExpr)
  | [] => some []
  | c :: cs =>
    match c.build mk mv kt vt, buildAll mk mv kt vt cs with
    | some e, some es => some (e :: es)
    | _, _ => none
end

/-- A part that is stored in at least one column. -/
def HasColumn (t : Ty) : Prop := ∀ path f, columnsOf t path f ≠ some []

mutual
/-- The condition type checks, its pointers point to parts of the record that are stored, `Empty` is asked of scalars only,
and no `Cases` is empty. -/
def GCond.Proper (kt vt : Ty) : GCond → Prop
  | .const _ => True
  | .equals r x => ∃ t, r.type kt vt = some t ∧ HasTy t x ∧ HasColumn t
  | .cmp _ r x => ∃ q, r.type kt vt = some (.scalar q) ∧ Numeric q ∧ Fits q x
  | .str _ r _ => r.type kt vt = some (.scalar .string)
  | .empty r => ∃ q, r.type kt vt = some (.scalar q)
  | .not c => c.Proper kt vt
  | .any cs => cs ≠ [] ∧ allProper kt vt cs
  | .all cs => allProper kt vt cs
/-- The same for every condition. -/
def allProper (kt vt : Ty) : List GCond → Prop
  | [] => True
  | c :: cs => c.Proper kt vt ∧ allProper kt vt cs
end

end Verif.Sql
