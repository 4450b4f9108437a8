import Verif.Sql.Model

/-! Specifications for the in-memory database: what the English properties talk about. -/
namespace Verif.Sql

/-- A condition as a user means it. `atom` is any test of the record. -/
inductive Cond (K V : Type) where
  | atom (p : K → V → Bool)
  | min (col : K → V → Int) (x : Int)
  | max (col : K → V → Int) (x : Int)
  | moreThan (col : K → V → Int) (x : Int)
  | lessThan (col : K → V → Int) (x : Int)
  | equals (col : K → V → Int) (x : Int)
  | empty (col : K → V → Int)
  | not (c : Cond K V)
  | any (cs : List (Cond K V))
  | all (cs : List (Cond K V))

mutual
/-- Whether a record meets a condition. -/
def Cond.Holds {K V : Type} (k : K) (v : V) : Cond K V → Prop
  | .atom p => p k v = true
  | .min col x => x ≤ col k v
  | .max col x => col k v ≤ x
  | .moreThan col x => x < col k v
  | .lessThan col x => col k v < x
  | .equals col x => col k v = x
  | .empty col => col k v = 0
  | .not c => ¬ c.Holds k v
  | .any cs => anyHolds k v cs
  | .all cs => allHold k v cs
/-- Some condition of the list holds. -/
def anyHolds {K V : Type} (k : K) (v : V) : List (Cond K V) → Prop
  | [] => False
  | c :: cs => c.Holds k v ∨ anyHolds k v cs
/-- Every condition of the list holds. -/
def allHold {K V : Type} (k : K) (v : V) : List (Cond K V) → Prop
  | [] => True
  | c :: cs => c.Holds k v ∧ allHold k v cs
end

mutual
/-- The expression the library builds for a condition. -/
def Cond.expr {K V : Type} (k : K) (v : V) : Cond K V → Expr K V
  | .atom p => .value (p k v)
  | .min col x => whereMin (col k v) x
  | .max col x => whereMax (col k v) x
  | .moreThan col x => whereMoreThan (col k v) x
  | .lessThan col x => whereLessThan (col k v) x
  | .equals col x => indexEquals (col k v) x
  | .empty col => emptyExpr (col k v) 0
  | .not c => avoid (c.expr k v)
  | .any cs => casesOf (exprs k v cs)
  | .all cs => mergeOf (exprs k v cs)
/-- The expressions of several conditions. -/
def exprs {K V : Type} (k : K) (v : V) : List (Cond K V) → List (Expr K V)
  | [] => []
  | c :: cs => c.expr k v :: exprs k v cs
end

mutual
/-- No disjunction of nothing. -/
def Cond.NonEmpty {K V : Type} : Cond K V → Prop
  | .not c => c.NonEmpty
  | .any cs => cs ≠ [] ∧ allNonEmpty cs
  | .all cs => allNonEmpty cs
  | _ => True
/-- The same for every condition of a list. -/
def allNonEmpty {K V : Type} : List (Cond K V) → Prop
  | [] => True
  | c :: cs => c.NonEmpty ∧ allNonEmpty cs
end

/-- The operations of C19. A check is a list of tests of the value, all of which have to hold. -/
inductive Op (K V : Type) where
  | insert (k : K) (upsert : Bool) (v : V)
  | lookup (k : K)
  | delete (k : K) (check : Option (V → List Bool))
  | mutate (k : K) (check : Option (V → List Bool)) (patch : V → V)

/-- What an operation answers. -/
inductive Ans (V : Type) where
  | error (e : Option Err)
  | found (v : Option V)
  | did (b : Bool)
  deriving DecidableEq

/-- A mathematical partial map. -/
abbrev PMap (K V : Type) := K → Option V

/-- The partial map with one point changed. -/
def PMap.set {K V : Type} [DecidableEq K] (f : PMap K V) (k : K) (o : Option V) : PMap K V := fun k' => if k' = k then o else f k'

/-- A check passes when all of its tests hold (no check passes always). -/
def Passes {V : Type} (check : Option (V → List Bool)) (v : V) : Prop :=
  match check with
  | none => True
  | some c => ∀ b ∈ c v, b = true

instance {V : Type} (check : Option (V → List Bool)) (v : V) : Decidable (Passes check v) := by unfold Passes; split <;> infer_instance

/-- What each operation does to a mathematical map, and what it answers. -/
def onMap {K V : Type} [DecidableEq K] (f : PMap K V) : Op K V → PMap K V × Ans V
  | .insert k true v => (f.set k (some v), .error none)
  | .insert k false v => if (f k).isSome then (f, .error (some .duplicate)) else (f.set k (some v), .error none)
  | .lookup k => (f, .found (f k))
  | .delete k check =>
    match f k with
    | none => (f, .did false)
    | some v => if Passes check v then (f.set k none, .did true) else (f, .did false)
  | .mutate k check patch =>
    match f k with
    | none => (f, .did false)
    | some v => if Passes check v then (f.set k (some (patch v)), .did true) else (f, .did false)

/-- The same operation on the in-memory database: the tests of a check are the expressions `Value(test)`. -/
def onRam {K V : Type} [DecidableEq K] (m : List (K × V)) : Op K V → List (K × V) × Ans V
  | .insert k u v => ((insert m k u v).1, .error (insert m k u v).2)
  | .lookup k => (m, .found (lookup m k))
  | .delete k check => ((deleteIf m k (check.map fun c v => (c v).map .value)).1, .did (deleteIf m k (check.map fun c v => (c v).map .value)).2)
  | .mutate k check patch =>
    ((mutate m k (check.map fun c v => (c v).map .value) patch).1, .did (mutate m k (check.map fun c v => (c v).map .value) patch).2)

/-- The answers of a sequence of operations. -/
def answers {S V O : Type} (f : S → O → S × Ans V) : S → List O → List (Ans V)
  | _, [] => []
  | s, o :: os => (f s o).2 :: answers f (f s o).1 os

/-- An order in which `Range` can visit the records: every key present, once. -/
def Visits {K V : Type} [DecidableEq K] (m : List (K × V)) (order : List K) : Prop :=
  order.Nodup ∧ ∀ k, k ∈ order ↔ (load m k).isSome = true

/-- The keys of the records that match, in the order of visiting. -/
def hits {K V : Type} [DecidableEq K] (query : K → V → List (Expr K V)) (m : List (K × V)) (order : List K) : List K :=
  order.filter fun k => match load m k with | some v => matchAll (query k v) | none => false

/-- The first differing order expression decides. -/
def lexLess {K V : Type} : List (Bool × (K → V → Int)) → K × V → K × V → Bool
  | [], _, _ => false
  | (d, c) :: os, a, b =>
    if (if d then c a.1 a.2 > c b.1 b.2 else c a.1 a.2 < c b.1 b.2) then true
    else if c a.1 a.2 = c b.1 b.2 then lexLess os a b else false

/-- What Go documents for `sort.Slice`, for a comparison that looks at the elements only: given a strict weak order it
returns a permutation in which no element is less than an earlier one. -/
def SortContract {K : Type} (zk : K) (sort : (List K → Nat → Nat → Bool) → List K → List K) : Prop :=
  (∀ cmp l, (sort cmp l).Perm l) ∧
  ∀ (lt : K → K → Bool), (∀ a b, lt a b = true → lt b a = false) → (∀ a b c, lt a b = false → lt b c = false → lt a c = false) →
    ∀ l, (sort (fun now i j => lt (now.getD i zk) (now.getD j zk)) l).Pairwise (fun a b => lt b a = false)

end Verif.Sql
