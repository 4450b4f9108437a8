import Verif.Zgo.CompModel
/-!
# C201, C202: literals and maps of Go
-/
namespace Verif.Zgo.Comp.Spec

variable {K V : Type}

/-- A literal Go accepts and this model says the value of: the elements of arrays and slices have no keys or constant indexes as keys (given by `index`); a struct
literal has all its fields in order or keyed by fields, none twice; a map has a key for each element. Elided types are those of the elements, with values `inner`. -/
structure Lits (K V : Type) where
  zero : V
  index : K → Nat
  inner : V

/-- The elements of an array or slice: each follows the one before it, or is at its index. -/
def indexed (L : Lits K V) : Nat → List (Elem K V) → List (Nat × V)
  | _, [] => []
  | i, .value v :: es => (i, v) :: indexed L (i + 1) es
  | _, .keyed k v :: es => (L.index k, v) :: indexed L (L.index k + 1) es
  | i, .elided :: es => (i, L.inner) :: indexed L (i + 1) es

/-- The element at index `i`. -/
def at_ (ps : List (Nat × V)) (i : Nat) : Option V := (ps.find? (fun p => p.1 = i)).map Prod.snd

/-- One more than the largest index. -/
def size (ps : List (Nat × V)) : Nat := ps.foldl (fun n p => max n (p.1 + 1)) 0

/-- The value of the array or slice literal. -/
def list (L : Lits K V) (n : Nat) (es : List (Elem K V)) : List V :=
  (List.range n).map fun i => match at_ (indexed L 0 es) i with | some v => v | none => L.zero

/-- The value of an element with key `f`. -/
def keyed? [DecidableEq K] (f : K) : Elem K V → Option V
  | .keyed k v => if k = f then some v else none
  | _ => none

/-- The key of an element. -/
def key? : Elem K V → Option K
  | .keyed k _ => some k
  | _ => none

/-- The value of field `f` of a struct literal: by position if the elements have no keys, else by key. -/
def field [DecidableEq K] (L : Lits K V) (fields : List K) (es : List (Elem K V)) (f : K) : V :=
  match es.findSome? (keyed? f) with
  | some v => v
  | none => match (fields.zip es).find? (fun p => p.1 = f) with
    | some (_, .value v) => v
    | some (_, .elided) => L.inner
    | _ => L.zero

/-- The value of a map literal at `k`: of the last element with this key. -/
def entry [DecidableEq K] (es : List (Elem K V)) (k : K) : Option V :=
  es.reverse.findSome? (keyed? k)

/-- Go's rules for literals of structs: fields by position, all of them, or keyed, each a field and none twice. -/
def StructOk (fields : List K) (es : List (Elem K V)) : Prop :=
  ((∀ e ∈ es, ∃ v, e = .value v ∨ e = .elided) ∧ (es = [] ∨ es.length = fields.length)) ∨
  ((∀ e ∈ es, ∃ k v, e = .keyed k v ∧ k ∈ fields) ∧ (es.filterMap key?).Nodup)

/-- A value of Zig is the value of the literal. -/
def Same [DecidableEq K] (L : Lits K V) (t : Ty K) (es : List (Elem K V)) : ZVal K V → Prop
  | .list vs => match t with
    | .array n => vs = list L n es
    | .slice => vs = list L (size (indexed L 0 es)) es
    | _ => False
  | .fields fs => match t with
    | .struct fields => ∀ f ∈ fields, ∀ v, (f, v) ∈ fs ↔ v = field L fields es f
    | _ => False
  | .entries ps => match t with
    | .smap => ∀ k v, (k, v) ∈ ps ↔ entry es k = some v
    | _ => False

/-- Maps: which map each variable has, and each map's values. -/
structure GoSt (K V : Type) where
  maps : Nat → K → Option V
  next : Nat
  vars : Nat → Option Nat
  printed : List V

/-- One operation of Go's that the compiler accepts. -/
def step [DecidableEq K] (zero : V) (s : GoSt K V) : Op K V → GoSt K V
  | .make x => { s with maps := fun m => if m = s.next then fun _ => none else s.maps m, next := s.next + 1,
                        vars := fun y => if y = x then some s.next else s.vars y }
  | .literal x ps => { s with maps := fun m => if m = s.next then (fun k => entry (ps.map fun p => .keyed p.1 p.2) k) else s.maps m, next := s.next + 1,
                              vars := fun y => if y = x then some s.next else s.vars y }
  | .share x y => { s with vars := fun z => if z = x then s.vars y else s.vars z }
  | .set x k v => match s.vars x with
    | some m => { s with maps := fun m' k' => if m' = m ∧ k' = k then some v else s.maps m' k' }
    | none => s
  | .get x k => match s.vars x with
    | some m => { s with printed := s.printed ++ [(s.maps m k).getD zero] }
    | none => s
  | _ => s

/-- A program of Go's. -/
def run [DecidableEq K] (zero : V) (ops : List (Op K V)) : GoSt K V := ops.foldl (step zero) ⟨fun _ _ => none, 0, fun _ => none, []⟩

end Verif.Zgo.Comp.Spec
