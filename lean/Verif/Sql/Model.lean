/-
Model of sql/ram.go (the in-memory database behind `sql.Map`) and of the query combinators of sql/sql.go.

Simplifications, stated once:
* `sync.Map` is a list of key-value pairs with `load`, `store` and `delete`. `Range` may visit the entries in any order, so
  every operation that ranges takes the order of the keys it visits as an argument.
* Query, check and patch functions are pure functions of the record. A column is a projection of the record; the columns
  of ordered types are taken to be integers.
* The concurrent behaviour is in Verif/Sql/Conc.lean; here every call runs on its own.
-/
namespace Verif.Sql

/-- `sodium.Expression`, sql/std/sodium/sql.go:224-235, without the forms that only a real database sees (`Index`, `Where`,
`Match`, `Empty`: with the in-memory database they are replaced by `Value`, sql/sql.go:188-190, 421-444, 463-490, 544-551).
An `Order` holds the direction and the column it compares, sql/sql.go:500-534. -/
inductive Expr (K V : Type) where
  | value (b : Bool)
  | order (dec : Bool) (col : K → V → Int)
  | range (lo hi : Int)
  | avoid (e : Expr K V)
  | cases (es : List (Expr K V))
  | group (es : List (Expr K V))

variable {K V : Type}

/-- `Avoid`, sql/sql.go:555-560. -/
def avoid : Expr K V → Expr K V
  | .value b => .value !b
  | e => .avoid e

/-- The loop of `Cases`, sql/sql.go:568-577. -/
def casesLoop (all : List (Expr K V)) : List (Expr K V) → Expr K V
  | [] => .value false
  | .value b :: es => if b then .value true else casesLoop all es
  | _ :: _ => .cases all

/-- `Cases`, sql/sql.go:564-579. -/
def casesOf (es : List (Expr K V)) : Expr K V :=
  match es with
  | [] => .value true
  | _ => casesLoop es es

/-- The loop of `Merge`, sql/sql.go:587-596. -/
def mergeLoop (all : List (Expr K V)) : List (Expr K V) → Expr K V
  | [] => .value true
  | .value b :: es => if !b then .value false else mergeLoop all es
  | _ :: _ => .group all

/-- `Merge`, sql/sql.go:583-598. -/
def mergeOf (es : List (Expr K V)) : Expr K V :=
  match es with
  | [] => .value true
  | _ => mergeLoop es es

/-- `Index(ptr).Equals(val)`, sql/sql.go:187-190. -/
def indexEquals {C : Type} [DecidableEq C] (ptr val : C) : Expr K V := .value (decide (ptr = val))

/-- `Where(ptr).Min(val)`, sql/sql.go:421-426. -/
def whereMin (ptr val : Int) : Expr K V := .value (decide (ptr ≥ val))
/-- `Where(ptr).Max(val)`, sql/sql.go:427-432. -/
def whereMax (ptr val : Int) : Expr K V := .value (decide (ptr ≤ val))
/-- `Where(ptr).MoreThan(val)`, sql/sql.go:433-438. -/
def whereMoreThan (ptr val : Int) : Expr K V := .value (decide (ptr > val))
/-- `Where(ptr).LessThan(val)`, sql/sql.go:439-444. -/
def whereLessThan (ptr val : Int) : Expr K V := .value (decide (ptr < val))

/-- `Empty(ptr)`, sql/sql.go:544-551. -/
def emptyExpr {C : Type} [DecidableEq C] (ptr zero : C) : Expr K V := .value (decide (ptr = zero))

/-- `(*ram).match`, sql/ram.go:29-39. -/
def matchAll : List (Expr K V) → Bool
  | [] => true
  | .value b :: es => if !b then false else matchAll es
  | _ :: es => matchAll es

/-- `QueryFunc.limit`, sql/sql.go:67-76, on the query of a zero key and value. -/
def limitOf : List (Expr K V) → Int × Int
  | [] => (0, 0)
  | .range lo hi :: _ => (lo, hi)
  | _ :: es => limitOf es

/-- `QueryFunc.ordered`, sql/sql.go:78-90, on the query of a zero key and value. -/
def orderedOf : List (Expr K V) → Bool
  | [] => false
  | .order _ _ :: _ => true
  | _ :: es => orderedOf es

section
variable [DecidableEq K]

/-- `sync.Map.Load` (`sql/ram.go:127`, `:143`, `:156`, `:206`). -/
def load : List (K × V) → K → Option V
  | [], _ => none
  | (k', v) :: m, k => if k' = k then some v else load m k

/-- `sync.Map.Delete` (`sql/ram.go:97`, `:151`). -/
def delete : List (K × V) → K → List (K × V)
  | [], _ => []
  | (k', v) :: m, k => if k' = k then delete m k else (k', v) :: delete m k

/-- `sync.Map.Store` (`sql/ram.go:64`, `:116`, `:136`). -/
def store (m : List (K × V)) (k : K) (v : V) : List (K × V) := (k, v) :: delete m k

/-- What a call reports (`sql/ram.go:53`, `:57`, `:69`). -/
inductive Err where
  | duplicate | insertOnly
  deriving DecidableEq, Repr

/-- `(*ram).Insert`, sql/ram.go:62-72. -/
def insert (m : List (K × V)) (k : K) (upsert : Bool) (v : V) : List (K × V) × Option Err :=
  if upsert then (store m k v, none)
  else match load m k with
    | some _ => (m, some .duplicate)
    | none => (store m k v, none)

/-- `check != nil && !m.match(check(&val))`, sql/ram.go:132 and 148. -/
def refused (check : Option (V → List (Expr K V))) (v : V) : Bool :=
  match check with
  | none => false
  | some c => !matchAll (c v)

/-- `(*ram).Mutate`, sql/ram.go:124-138. -/
def mutate (m : List (K × V)) (k : K) (check : Option (V → List (Expr K V))) (patch : V → V) : List (K × V) × Bool :=
  match load m k with
  | none => (m, false)
  | some v => if refused check v then (m, false) else (store m k (patch v), true)

/-- `(*ram).Delete`, sql/ram.go:140-153. -/
def deleteIf (m : List (K × V)) (k : K) (check : Option (V → List (Expr K V))) : List (K × V) × Bool :=
  match load m k with
  | none => (m, false)
  | some v => if refused check v then (m, false) else (delete m k, true)

/-- `(*ram).Lookup`, sql/ram.go:155-162. -/
def lookup (m : List (K × V)) (k : K) : Option V := load m k

/-- What the callback does to a record inside the slice, sql/ram.go:97 and 115-116. -/
def touch (patch : Option (V → V)) (m : List (K × V)) (k : K) (v : V) : List (K × V) :=
  match patch with
  | none => delete m k
  | some p => store m k (p v)

/-- The callback of `UnsafeDelete` (with `patch = none`) and of `Update`, sql/ram.go:90-102 and 108-121, over the keys in
the order `Range` visits them. -/
def rangeLoop (query : K → V → List (Expr K V)) (patch : Option (V → V)) (lo hi : Int) :
    List K → List (K × V) → Int → List (K × V) × Int
  | [], m, count => (m, count)
  | k :: ks, m, count =>
    match load m k with
    | none => rangeLoop query patch lo hi ks m count
    | some v =>
      if !matchAll (query k v) then rangeLoop query patch lo hi ks m count
      else
        let m' := if count ≥ lo then touch patch m k v else m
        if count + 1 < hi then rangeLoop query patch lo hi ks m' (count + 1) else (m', count + 1)

/-- `(*ram).UnsafeDelete`, sql/ram.go:87-103. -/
def unsafeDelete (zk : K) (zv : V) (order : List K) (m : List (K × V)) (query : K → V → List (Expr K V)) : List (K × V) × Int :=
  rangeLoop query none (limitOf (query zk zv)).1 (limitOf (query zk zv)).2 order m 0

/-- `(*ram).Update`, sql/ram.go:105-121. -/
def update (zk : K) (zv : V) (order : List K) (m : List (K × V)) (query : K → V → List (Expr K V)) (patch : V → V) : List (K × V) × Int :=
  rangeLoop query (some patch) (limitOf (query zk zv)).1 (limitOf (query zk zv)).2 order m 0

/-- The entries that `Range` with `query != nil && !m.match(query(&key, &val))` lets through, in the order of visiting,
sql/ram.go:75-83 and 170-182. -/
def matching (query : Option (K → V → List (Expr K V))) (m : List (K × V)) : List K → List (K × V)
  | [] => []
  | k :: ks =>
    match load m k with
    | none => matching query m ks
    | some v =>
      match query with
      | none => (k, v) :: matching query m ks
      | some q => if !matchAll (q k v) then matching query m ks else (k, v) :: matching query m ks

/-- `Map.Count` over `(*ram).Output`, sql/map.go:318-322 and sql/ram.go:74-85: each entry let through adds one. -/
def count (query : Option (K → V → List (Expr K V))) (m : List (K × V)) (order : List K) : Nat := (matching query m order).length

/-- `order.Load()` at one record and `order.Less()` at another, sql/sql.go:510-530. -/
def less (dec : Bool) (col : K → V → Int) (a b : K × V) : Bool :=
  if dec then decide (col a.1 a.2 > col b.1 b.2) else decide (col a.1 a.2 < col b.1 b.2)

/-- The `Order` expressions of a query, sql/ram.go:187-191. -/
def ordersOf : List (Expr K V) → List (Bool × (K → V → Int))
  | [] => []
  | .order d c :: es => (d, c) :: ordersOf es
  | _ :: es => ordersOf es

/-- The comparison handed to `sort.Slice`, sql/ram.go:192-204: it sees the keys as they are now, but the values where they
were in the snapshot. -/
def comparison (zk : K) (zv : V) (orders : List (Bool × (K → V → Int))) (snapshot : List V) (now : List K) (i j : Nat) : Bool :=
  orders.all fun o => less o.1 o.2 (now.getD i zk, snapshot.getD i zv) (now.getD j zk, snapshot.getD j zv)

/-- The inner loop of Go's insertion sort (sort/zsortfunc.go, which `sort.Slice` uses for up to twelve elements): move the
element at `j` down while it is less than its predecessor. -/
def sinkDown (cmp : List K → Nat → Nat → Bool) : Nat → List K → List K
  | 0, l => l
  | j + 1, l =>
    if cmp l (j + 1) j then
      match l[j + 1]?, l[j]? with
      | some b, some a => sinkDown cmp j ((l.set j b).set (j + 1) a)
      | _, _ => l
    else l

/-- `sort.Slice` for up to twelve elements (`sql/ram.go:192`). -/
def sortSlice (cmp : List K → Nat → Nat → Bool) (l : List K) : List K :=
  (List.range l.length).foldl (fun acc i => sinkDown cmp i acc) l

/-- `(*ram).Search`, sql/ram.go:164-215, for a caller that takes every result: the pairs yielded. `sort` is `sort.Slice`. -/
def search (zk : K) (zv : V) (sort : (List K → Nat → Nat → Bool) → List K → List K) (order : List K) (m : List (K × V))
    (query : Option (K → V → List (Expr K V))) : List (K × V) :=
  match query with
  | none => matching none m order
  | some q =>
    if orderedOf (q zk zv) then
      let found := matching query m order
      let keys := sort (comparison zk zv (ordersOf (q zk zv)) (found.map (·.2))) (found.map (·.1))
      keys.filterMap fun k => (load m k).map fun v => (k, v)
    else matching query m order

/-- `Map.First`, sql/map.go:309-315. -/
def first (zk : K) (zv : V) (sort : (List K → Nat → Nat → Bool) → List K → List K) (order : List K) (m : List (K × V))
    (query : Option (K → V → List (Expr K V))) : Option (K × V) := (search zk zv sort order m query).head?

end

/-! ### Add -/

/-- The state `Add` uses: the records, the counter `id`, and the calls of `Add` that have taken a number but not yet stored
their record (sql/ram.go:47 or 50 has run, line 55 has not). Keys are integers of `w` bits. -/
structure AddSt (w : Nat) (V : Type) where
  map : List (BitVec w × V)
  id : BitVec 64
  taken : List (BitVec w × V)
  added : List (BitVec w)
  calls : Nat

/-- What can happen: a call of `Add` takes a number; the `i`-th such call stores its record; other calls insert or delete
(`sql/ram.go:41-60`). -/
inductive AddAct (w : Nat) (V : Type) where
  | take (v : V)
  | finish (i : Nat)
  | insert (k : BitVec w) (upsert : Bool) (v : V)
  | delete (k : BitVec w)

/-- One step of `(*ram).Add`, sql/ram.go:41-61, or of another call. `added` lists the keys of the successful calls. -/
def addStep {w : Nat} (s : AddSt w V) : AddAct w V → AddSt w V
  | .take v => { s with id := s.id + 1, taken := s.taken ++ [((s.id + 1).setWidth w, v)], calls := s.calls + 1 }
  | .finish i =>
    match s.taken[i]? with
    | none => s
    | some (k, v) =>
      match load s.map k with
      | some _ => { s with taken := s.taken.eraseIdx i }
      | none => { s with taken := s.taken.eraseIdx i, map := store s.map k v, added := k :: s.added }
  | .insert k u v => { s with map := (insert s.map k u v).1 }
  | .delete k => { s with map := delete s.map k }

/-- Any number of steps on an empty map (`sql/ram.go:41-60`). -/
def addRun {w : Nat} (as : List (AddAct w V)) : AddSt w V := as.foldl addStep ⟨[], 0, [], [], 0⟩

end Verif.Sql
