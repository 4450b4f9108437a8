/-!
# zgo: composite literals and maps: model

`DataComposite` (`zgo/internal/target/zigc/composite.go:11-84`), `ExpressionKeyValue` (`expressions.go:151-160`), the struct types `TypeOf` writes
(`types.go:142-154`), and maps with string keys: `smap` (`build_runtime.zig:288-328`), `make`, `clear`, `len` (`builtins.go:55-175`), `ExpressionIndex` (`expressions.go:112-149`),
assignments (`assignment.go:64-79`).

The values of elements are a parameter (numbers stand for expressions that were evaluated, in the order they are written). Keys of struct literals are field
names, which are written as they are; the escape analysis is left out.
-/
namespace Verif.Zgo.Comp

/-- An element of a literal (`composite.go:19-77`). `elided`: a literal without its type, as in `[][]int{{1}}`. -/
inductive Elem (K V : Type) where
  | value (v : V)
  | keyed (k : K) (v : V)
  | elided
  deriving DecidableEq, Repr

/-- The type of a literal (`composite.go:17`): an array of so many elements, a slice, a struct of these fields, a map with string keys or
with others. -/
inductive Ty (F : Type) where
  | array (n : Nat)
  | slice
  | struct (fields : List F)
  | smap
  | map
  deriving DecidableEq, Repr

/-- An element as it is written: an expression, `.key=expression` or `.{key, expression}`. -/
inductive ZElem (K V : Type) where
  | value (v : V)
  | field (k : K) (v : V)
  | pair (k : K) (v : V)
  deriving DecidableEq, Repr

/-- The elements of an array or slice (`composite.go:19-41`): `zig.Compile`, which refuses a literal without type
(`composite.go:13-15`) and writes a keyed one as a field (`expressions.go:151-160`). -/
def positional {K V : Type} : List (Elem K V) → Option (List (ZElem K V))
  | [] => some []
  | .value v :: es => (positional es).map (.value v :: ·)
  | .keyed k v :: es => (positional es).map (.field k v :: ·)
  | .elided :: _ => none

/-- The fields of a struct (`composite.go:60-78`), the elements from the `i`th on; `typ.Field(i)` panics beyond the last field (Go does not
allow such literals). -/
def structElems {F V : Type} (fields : List F) : Nat → List (Elem F V) → Option (List (ZElem F V))
  | _, [] => some []
  | i, .value v :: es => match fields[i]? with
    | some f => (structElems fields (i + 1) es).map (.field f v :: ·)
    | none => none
  | i, .keyed k v :: es => (structElems fields (i + 1) es).map (.field k v :: ·)
  | _, .elided :: _ => none

/-- The pairs of a map (`composite.go:42-59`). Every element has a key. -/
def mapElems {K V : Type} : List (Elem K V) → Option (List (ZElem K V))
  | [] => some []
  | .keyed k v :: es => (mapElems es).map (.pair k v :: ·)
  | _ :: _ => none

/-- What is written for a literal: its type and elements (`composite.go:11-84`). -/
def compile {K V : Type} (t : Ty K) (es : List (Elem K V)) : Option (List (ZElem K V)) :=
  match t with
  | .array _ => positional es
  | .slice => positional es
  | .struct fields => structElems fields 0 es
  | .smap => mapElems es
  | .map => mapElems es

/-- A value of Zig: elements, fields by name, or the entries of a hash map. -/
inductive ZVal (K V : Type) where
  | list (vs : List V)
  | fields (fs : List (K × V))
  | entries (es : List (K × V))
  deriving DecidableEq, Repr

/-- All elements are expressions. -/
def values {K V : Type} : List (ZElem K V) → Option (List V)
  | [] => some []
  | .value v :: es => (values es).map (v :: ·)
  | _ :: _ => none

/-- All elements are fields. -/
def fieldsOf {K V : Type} : List (ZElem K V) → Option (List (K × V))
  | [] => some []
  | .field k v :: es => (fieldsOf es).map ((k, v) :: ·)
  | _ :: _ => none

/-- All elements are pairs. -/
def pairsOf {K V : Type} : List (ZElem K V) → Option (List (K × V))
  | [] => some []
  | .pair k v :: es => (pairsOf es).map ((k, v) :: ·)
  | _ :: _ => none

/-- `StringHashMapUnmanaged.put` (`build_runtime.zig:314`, `:319`). -/
def put {K V : Type} [DecidableEq K] (es : List (K × V)) (k : K) (v : V) : List (K × V) :=
  match es with
  | [] => [(k, v)]
  | (k', v') :: rest => if k' = k then (k, v) :: rest else (k', v') :: put rest k v

/-- `smap.literal` (`build_runtime.zig:307-317`). -/
def literal {K V : Type} [DecidableEq K] (ps : List (K × V)) : List (K × V) := ps.foldl (fun es p => put es p.1 p.2) []

/-- The value of a literal in Zig, `none` if Zig does not accept it: an array has as many elements as its type says; a struct has every field once, as
the fields of `struct {f: T}` have no default values; `go.map` has no `literal` (`build_runtime.zig:257-286`). -/
def zig {K V : Type} [DecidableEq K] (t : Ty K) (es : List (ZElem K V)) : Option (ZVal K V) :=
  match t with
  | .array n => (values es).bind fun vs => if vs.length = n then some (.list vs) else none
  | .slice => (values es).map .list
  | .struct fields => (fieldsOf es).bind fun fs =>
      if (fs.map Prod.fst).Nodup ∧ (∀ f ∈ fields, f ∈ fs.map Prod.fst) ∧ ∀ f ∈ fs.map Prod.fst, f ∈ fields then some (.fields fs) else none
  | .smap => (pairsOf es).map fun ps => .entries (literal ps)
  | .map => none

/-- Element, field or entry `k` of a value. -/
def lookup {K V : Type} [DecidableEq K] (es : List (K × V)) (k : K) : Option V :=
  match es with
  | [] => none
  | (k', v) :: rest => if k' = k then some v else lookup rest k

/-! ## Maps with string keys -/

/-- What a program does with variables that hold maps (`x`, `y` are variables). -/
inductive Op (K V : Type) where
  /-- `var x map[string]T` -/
  | declare (x : Nat)
  /-- `x := make(map[string]T)` -/
  | make (x : Nat)
  /-- `x := make(map[string]T, n)` -/
  | makeSized (x n : Nat)
  /-- `x := map[string]T{k: v, …}` -/
  | literal (x : Nat) (ps : List (K × V))
  /-- `x = y` -/
  | share (x y : Nat)
  /-- `x[k] = v` -/
  | set (x : Nat) (k : K) (v : V)
  /-- `println(x[k])` -/
  | get (x : Nat) (k : K)
  /-- `v, ok := x[k]`, `delete(x, k)`, `clear(x)`, `len(x)`, `for … range x` -/
  | commaOk (x : Nat) (k : K)
  | delete (x : Nat) (k : K)
  | clear (x : Nat)
  | len (x : Nat)
  | range (x : Nat)
  deriving DecidableEq, Repr

/-- Whether the compiler and Zig accept an operation. `go.zero` of a struct with a pointer is an error in Zig (`definitions.go:176-180`, `build_runtime.zig:64-66`);
`make` with a size is refused (`builtins.go:99-101`); `:=` of two variables and one value panics (`assignment.go:36-40`); there is no `delete` (`function_call.go:46-47`);
`smap.clear` takes two arguments and is called with one (`builtins.go:146-148`, `build_runtime.zig:325-327`); `smap` has no `len` (`build_runtime.zig:288-328`); range over maps is
refused (`loops.go:134`). -/
def accepted {K V : Type} : Op K V → Bool
  | .make _ => true
  | .literal .. => true
  | .share .. => true
  | .set .. => true
  | .get .. => true
  | _ => false

/-- The compiled program: hash maps in the memory of the routine, and for each variable which one it has (`build_runtime.zig:288-328`). -/
structure ZSt (K V : Type) where
  maps : List (List (K × V))
  vars : Nat → Option Nat
  printed : List V

/-- One operation of the compiled program; `zero` is `std.mem.zeroes(V)` (`build_runtime.zig:321-324`). -/
def zstep {K V : Type} [DecidableEq K] (zero : V) (s : ZSt K V) : Op K V → ZSt K V
  | .make x => { s with maps := s.maps ++ [[]], vars := fun y => if y = x then some s.maps.length else s.vars y }
  | .literal x ps => { s with maps := s.maps ++ [Comp.literal ps], vars := fun y => if y = x then some s.maps.length else s.vars y }
  | .share x y => { s with vars := fun z => if z = x then s.vars y else s.vars z }
  | .set x k v => match s.vars x with
    | some m => { s with maps := s.maps.modify m (fun es => put es k v) }
    | none => s
  | .get x k => match s.vars x with
    | some m => match s.maps[m]? with
      | some es => { s with printed := s.printed ++ [match lookup es k with | some v => v | none => zero] }
      | none => s
    | none => s
  | _ => s

/-- A program. -/
def zrun {K V : Type} [DecidableEq K] (zero : V) (ops : List (Op K V)) : ZSt K V := ops.foldl (zstep zero) ⟨[], fun _ => none, []⟩

end Verif.Zgo.Comp
