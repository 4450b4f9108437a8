/-!
# Model of API structures (api/api.go:85-273, api/err.go:51-95)

Models `StructureOf`, `Structure.Iter`, `Structure.link` and `Register`: which functions a Go struct has, in which order,
under which path and which root.

Simplifications: tags other than `api`, documentation, hosts and instances are left out (documentation is modelled in
`DocModel`); a struct that is already a `Structure` and nil pointers are left out; a function is identified by its
address (`Function.Is`). Slices of names are modelled with their backing arrays, because `link` appends to shared
slices.
-/
namespace Verif.Api

/-- A string (names, `api/api.go:115`). -/
abbrev Str := List Char

/-- A scenario of `Register` (err.go:73-93): its name and an identity of its test. -/
structure Scenario where
  name : Str
  test : Nat
deriving DecidableEq

mutual
/-- A Go struct: its fields (`api/api.go:170`). -/
inductive GoStruct where
  | mk (fields : Fields)
/-- The fields of a struct, by what `StructureOf` does with them (api.go:176-219). -/
inductive Fields where
  | nil
  /-- A function: its name, its `api` tag and its address. -/
  | func (name api : Str) (addr : Nat) (rest : Fields)
  /-- An `api.Register` field: its name and its scenarios. -/
  | register (name : Str) (scenarios : List Scenario) (rest : Fields)
  /-- Another struct, but not an `api.Specification`. -/
  | sub (name : Str) (s : GoStruct) (rest : Fields)
  /-- Anything else. -/
  | other (rest : Fields)
end

/-- A slice of strings: its backing array and its length (the paths of `link`, `api/api.go:262-270`). -/
structure Slice where
  arr : Nat
  len : Nat
deriving DecidableEq

/-- The backing arrays; the length of an array is the capacity of slices of it
(`append` in `link`, `api/api.go:267`). -/
abbrev Heap := List (List Str)

/-- The elements of a slice (`api/api.go:264`). -/
def Heap.read (h : Heap) (s : Slice) : List Str := ((h[s.arr]?).getD []).take s.len

/-- The capacity after growing from a full slice of that length, in Go 1.2x (`runtime.nextslicecap`): twice, and from
256 a quarter and 192 more. Rounding up to a size class, which changes nothing up to 512, is left out
(`append` in `link`, `api/api.go:267`). -/
def grow (n : Nat) : Nat := if n < 256 then 2 * n else n + (n + 768) / 4

/-- `append(s, x)`: in place if there is room, otherwise into a new array (api.go:267). -/
def Heap.append (h : Heap) (s : Slice) (x : Str) : Heap × Slice :=
  let a := (h[s.arr]?).getD []
  if s.len < a.length then (h.set s.arr (a.set s.len x), ⟨s.arr, s.len + 1⟩)
  else (h ++ [a.take s.len ++ x :: List.replicate (grow s.len - s.len - 1) []], ⟨h.length, s.len + 1⟩)

/-- `Function` (api.go:275-286): its name, address and path. Its `Root` is the structure that holds it
(api.go:222-224), see `Tree.iter`. -/
structure Fn where
  name : Str
  addr : Nat
  path : Slice
deriving DecidableEq

mutual
/-- `Structure` (api.go:111-136). The entries of the namespace are in the order in which the runtime iterates over
the map. -/
inductive Tree where
  | mk (functions : List Fn) (scenarios : List Scenario) (namespaces : Spaces)
/-- `Namespace` (`api/api.go:130`). -/
inductive Spaces where
  | nil
  | cons (name : Str) (t : Tree) (rest : Spaces)
end

/-- `Functions` (`api/api.go:122`). -/
def Tree.functions : Tree → List Fn | .mk f _ _ => f
/-- `Scenarios` (`api/api.go:127`). -/
def Tree.scenarios : Tree → List Scenario | .mk _ s _ => s
/-- `Namespace` (`api/api.go:130`). -/
def Tree.spaces : Tree → Spaces | .mk _ _ n => n

/-- A write to a Go map. A new key goes to the end; `Spaces.Order` is about the other orders
(`api/api.go:200`, `:228`, `:268`). -/
def Spaces.set : Spaces → Str → Tree → Spaces
  | .nil, k, t => .cons k t .nil
  | .cons k' t' r, k, t => if k' = k then .cons k t r else .cons k' t' (r.set k t)

/-- A read of a Go map (`api/api.go:241`). -/
def Spaces.get : Spaces → Str → Option Tree
  | .nil, _ => none
  | .cons k' t' r, k => if k' = k then some t' else r.get k

mutual
/-- `StructureOf` (api.go:141-231) up to linking: functions get the nil path. A `Register` field is an entry of the
namespace too, an empty one (api.go:190-202). -/
def structureOf : GoStruct → Tree
  | .mk fs => fieldsOf fs [] [] .nil
/-- The loop over the fields (api.go:170-219). -/
def fieldsOf : Fields → List Fn → List Scenario → Spaces → Tree
  | .nil, fns, scs, ns => .mk fns scs ns
  | .func name api addr rest, fns, scs, ns =>
    fieldsOf rest (fns ++ [⟨if api = [] then name else api, addr, ⟨0, 0⟩⟩]) scs ns
  | .register name ss rest, fns, scs, ns => fieldsOf rest fns (scs ++ ss) (ns.set name (.mk [] [] .nil))
  | .sub name s rest, fns, scs, ns => fieldsOf rest fns scs (ns.set name (structureOf s))
  | .other rest, fns, scs, ns => fieldsOf rest fns scs ns
end

mutual
/-- `Structure.link` (api.go:262-270). -/
def Tree.link (h : Heap) (path : Slice) : Tree → Heap × Tree
  | .mk fns scs ns =>
    let r := ns.link h path
    (r.1, .mk (fns.map fun f => { f with path := path }) scs r.2)
/-- Its loop over the namespace, in the order of the map (api.go:266-269). -/
def Spaces.link (h : Heap) (path : Slice) : Spaces → Heap × Spaces
  | .nil => (h, .nil)
  | .cons name t rest =>
    let a := h.append path name
    let r := t.link a.1 a.2
    let q := rest.link r.1 path
    (q.1, .cons name r.2 q.2)
end

/-- The loop at the end of `StructureOf` (api.go:225-229): each child is linked with a path of its own. The children
have been linked before, by the `StructureOf` that made them; those paths are replaced. -/
def linkTop (h : Heap) : Spaces → Heap × Spaces
  | .nil => (h, .nil)
  | .cons name t rest =>
    let r := t.link (h ++ [[name]]) ⟨h.length, 1⟩
    let q := linkTop r.1 rest
    (q.1, .cons name r.2 q.2)

/-- `StructureOf` with linking. Functions of the structure itself keep the nil path, of length 0
(`api/api.go:222-231`). -/
def linked (t : Tree) : Heap × Tree :=
  let r := linkTop [] t.spaces
  (r.1, .mk t.functions t.scenarios r.2)

/-- `slices.Sorted(maps.Keys(...))` (api.go:240): inserts a namespace in order of its name. -/
def insertSpace (name : Str) (x : List α) : List (Str × List α) → List (Str × List α)
  | [] => [(name, x)]
  | (k, y) :: r => if name < k then (name, x) :: (k, y) :: r else (k, y) :: insertSpace name x r

mutual
/-- The functions `Structure.Iter` yields, with their `Root` (api.go:233-250,222-224). -/
def Tree.iter : Tree → List (Fn × Tree)
  | .mk fns scs ns => fns.map (fun f => (f, .mk fns scs ns)) ++ (ns.iters.map Prod.snd).flatten
/-- Those of each namespace, sorted by its name (`api/api.go:240-247`). -/
def Spaces.iters : Spaces → List (Str × List (Fn × Tree))
  | .nil => []
  | .cons name t rest => insertSpace name t.iter rest.iters
end

mutual
/-- `Structure.Iter` with a loop body: it ends when the body returns false (api.go:233-250). The boolean says whether to
go on. -/
def Tree.run {σ : Type} (body : Fn × Tree → σ → Bool × σ) : Tree → σ → Bool × σ
  | .mk fns scs ns, s =>
    match runAll body (fns.map (fun f => (f, .mk fns scs ns))) s with
    | (false, s) => (false, s)
    | (true, s) => runSpaces (ns.runners body) s
/-- The loop over functions (api.go:235-239). -/
def runAll {σ : Type} (body : Fn × Tree → σ → Bool × σ) : List (Fn × Tree) → σ → Bool × σ
  | [], s => (true, s)
  | x :: xs, s =>
    match body x s with
    | (false, s) => (false, s)
    | (true, s) => runAll body xs s
/-- The iterators of the namespaces, sorted (`api/api.go:240-242`). -/
def Spaces.runners {σ : Type} (body : Fn × Tree → σ → Bool × σ) : Spaces → List (Str × List (σ → Bool × σ))
  | .nil => []
  | .cons name t rest => insertSpace name [t.run body] (rest.runners body)
/-- The loop over namespaces (api.go:240-247): the loop inside returns when its body does. -/
def runSpaces {σ : Type} : List (Str × List (σ → Bool × σ)) → σ → Bool × σ
  | [], s => (true, s)
  | (_, []) :: r, s => runSpaces r s
  | (_, f :: _) :: r, s =>
    match f s with
    | (false, s) => (false, s)
    | (true, s) => runSpaces r s
end

/-- The scenario that decides how a failure of a function is answered (host.go:588-599). -/
def scenarioFor (f : Fn × Tree) (holds : Nat → Bool) : Option Scenario :=
  f.2.scenarios.find? fun s => holds s.test

end Verif.Api
