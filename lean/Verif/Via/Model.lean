/-!
# Model of package via (via/via.go)

Types are those of reflect as far as the package looks at them, with the sizes of a 64-bit machine.
Memory is a list of bytes. A Go panic is `none`.
-/
namespace Verif.Via

/-- The kinds whose values hold pointers, that `canCache` names (via.go:59). -/
inductive PKind
  | string | func | chan | unsafePointer | ptr | interface | slice | map
deriving DecidableEq

mutual
/-- A Go type, as `reflect.Kind`, `Size`, `NumField`, `Field` and `Elem` show it. A scalar is a
boolean, a number or a uintptr of the given size (`via.go:53-70`). -/
inductive Ty
  | scalar (size : Nat)
  | pointer (k : PKind)
  | array (n : Nat) (elem : Ty)
  | struct (fields : Tys)
/-- The fields of a struct (via.go:62-67). -/
inductive Tys
  | nil
  | cons (t : Ty) (ts : Tys)
end

/-- Size of the kinds with pointers, in bytes (`Size`, via.go:55). -/
def PKind.size : PKind → Nat
  | .string | .interface => 16
  | .slice => 24
  | _ => 8

/-- The next multiple of `a` (for `Size`, via.go:55). -/
def roundUp (n a : Nat) : Nat := (n + a - 1) / a * a

mutual
/-- Alignment of a type (gc, 64 bit): `reflect.Type.Align`. Scalars of size 16 are complex128 (`via.go:55`). -/
def Ty.align : Ty → Nat
  | .scalar n => min (max n 1) 8
  | .pointer _ => 8
  | .array _ t => t.align
  | .struct fs => fs.align
/-- The greatest alignment of the fields (for `Size`, via.go:55). -/
def Tys.align : Tys → Nat
  | .nil => 1
  | .cons t ts => max t.align ts.align
end

mutual
/-- `reflect.Type.Size` (gc, 64 bit). The byte that gc adds after a last field of size zero is left
out (`via.go:55`). -/
def Ty.size : Ty → Nat
  | .scalar n => n
  | .pointer k => k.size
  | .array n t => n * t.size
  | .struct fs => roundUp (fs.ends 0) fs.align
/-- Where the last field ends if the first may begin at `off` (for `Size`, via.go:55). -/
def Tys.ends (off : Nat) : Tys → Nat
  | .nil => off
  | .cons t ts => ts.ends (roundUp off t.align + t.size)
end

mutual
/-- `canCache` (via.go:53-70): arrays are not looked into. -/
def canCache : Ty → Bool
  | .pointer k => if k.size > 16 then false else false
  | .struct fs => if (Ty.struct fs).size > 16 then false else canCacheAll fs
  | .scalar n => if (Ty.scalar n).size > 16 then false else true
  | .array n t => if (Ty.array n t).size > 16 then false else true
/-- The loop over the fields (via.go:62-67). -/
def canCacheAll : Tys → Bool
  | .nil => true
  | .cons t ts => if canCache t then canCacheAll ts else false
end

/-- `CachedState` (via.go:8-11): the proxy type it belongs to, and sixteen bytes. `P` is the type
of names of types. -/
structure State (P : Type) where
  rtype : P
  value : List UInt8

/-- `NewCache` (via.go:28-35): the bytes of the state over sixteen zero bytes. -/
def newCache {P : Type} (p : P) (state : List UInt8) : State P :=
  ⟨p, state ++ List.replicate (16 - state.length) 0⟩

/-- `Cached` (via.go:36-41): the first bytes of the value, as many as the type asked for has. -/
def cached {P : Type} [DecidableEq P] (p : P) (size : Nat) (s : State P) : Option (List UInt8) :=
  if s.rtype ≠ p then none else some (s.value.take size)

/-- The sizes of the types that `Cacheable` lists (via.go:13-27), line by line. `~uint` is missing
from the list, `[1]uint` and `[2]uint` are not. -/
def cacheable : List Nat :=
  [1, 2, 4, 8, 8, 1, 2, 4, 8, 8, 4, 8, 8, 16, 1] ++
  (List.range 16).map (fun i => (i + 1) * 1) ++ (List.range 8).map (fun i => (i + 1) * 2) ++
  (List.range 4).map (fun i => (i + 1) * 4) ++ (List.range 2).map (fun i => (i + 1) * 8) ++
  (List.range 2).map (fun i => (i + 1) * 8) ++
  (List.range 16).map (fun i => (i + 1) * 1) ++ (List.range 8).map (fun i => (i + 1) * 2) ++
  (List.range 4).map (fun i => (i + 1) * 4) ++ (List.range 2).map (fun i => (i + 1) * 8) ++
  (List.range 2).map (fun i => (i + 1) * 8) ++ (List.range 2).map (fun i => (i + 1) * 8) ++
  (List.range 4).map (fun i => (i + 1) * 4) ++ (List.range 2).map (fun i => (i + 1) * 8) ++
  (List.range 2).map (fun i => (i + 1) * 8) ++ [16]

/-- The four words of memory that `TryCache` reads (via.go:43-51): an `any` is two words, a type
and a pointer to the data, and a `CachedState` is four, the two of the `reflect.Type` interface and
the two of the value. `beyond` is what follows the variable `val` in memory. -/
def tryCache (t : Option Ty) (typeWord dataWord : UInt64) (beyond : UInt64 × UInt64) :
    Option ((UInt64 × UInt64) × (UInt64 × UInt64)) :=
  match t with
  | none => none
  | some t => if !canCache t then none else some ((typeWord, dataWord), beyond)

/-- `Any` (via.go:72-75). -/
structure AnyV (A : Type) where
  state : List UInt8
  proxy : A

/-- `Internal` (via.go:80-82) with `typeOf` for `reflect.TypeOf`. -/
def internal {A P : Type} (typeOf : A → P) (a : AnyV A) : State P := ⟨typeOf a.proxy, a.state⟩

/-- `New` (via.go:99-104). -/
def new {A P : Type} (proxy : A) (cache : State P) : AnyV A := ⟨cache.value, proxy⟩

/-- `Proxy` (via.go:106-119): the proxy to use and its state, and what the old proxy's `Proxy`
method is told, if it has one. `isV` is the assertion to `V`, `alive` the old proxy's `Alive`, `back`
the assertion of the new one to `I` (none panics). -/
def proxy {A V P : Type} (typeOf : A → P) (isV : A → Option V) (alive : A → State P → Bool)
    (told : A → Bool) (back : V → Option A) (alloc : AnyV A → V × State P) (val : AnyV A) :
    Option (V × State P × Option (AnyV A)) :=
  match isV val.proxy, alive val.proxy (internal typeOf val) with
  | some already, true => some (already, internal typeOf val, none)
  | _, _ =>
    let (p, s) := alloc val
    if told val.proxy then
      match back p with
      | none => none
      | some a => some (p, s, some (new a s))
    else some (p, s, none)

end Verif.Via
