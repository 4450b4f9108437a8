/-!
# Model of the fields that parameters are stored in

Models `fieldByIndex` (`/repo/api/rest/host.go:49-65`) and its use for the arguments of a handler
(`/repo/api/rest/host.go:691-694,725-732`). `ServeModel` has a cell for each index and takes it that cells are apart; here
the cells are the fields of nested structs, some of them behind pointers. The values of a handler are addressable. What the
client reads (`/repo/api/rest/link.go:122-134`) is here too. (A tag that names a field behind a pointer inside a struct is
refused by a panic when the API is read, api/rest/rest.go:656-668; the function has no such restriction.)
-/
namespace Verif.Rest.Field

/-- A Go type, as far as fields go (api/rest/host.go:55). -/
inductive Ty where
  /-- Anything but a struct and a pointer. -/
  | leaf
  | struct (fields : List Ty)
  | ptr (elem : Ty)

/-- A value of such a type; a leaf has the number 0 as its zero value (api/rest/host.go:49). -/
inductive Val where
  | leaf (n : Nat)
  | struct (fields : List Val)
  | nil
  | ptr (elem : Val)

mutual
/-- `reflect.Zero`, and what `reflect.New` points at (api/rest/host.go:57, 693). -/
def zero : Ty → Val
  | .leaf => .leaf 0
  | .struct ts => .struct (zeros ts)
  | .ptr _ => .nil
/-- The zero values of the fields of a struct (api/rest/host.go:57, 693). -/
def zeros : List Ty → List Val
  | [] => []
  | t :: ts => zero t :: zeros ts
end

/-- `fieldByIndex` (api/rest/host.go:49-65): the value as it is after `f` was applied to the field, and the field as it was
found. A pointer to a struct is followed, and made if it is nil, except at the start. None is a panic: `Field` of something
that is not a struct, or of a field that does not exist. -/
def fieldByIndex (f : Val → Val) : Bool → Ty → Val → List Nat → Option (Val × Val)
  | _, _, v, [] => some (f v, v)
  | _, .struct ts, .struct vs, x :: index =>
    match ts[x]?, vs[x]? with
    | some t, some w => (fieldByIndex f false t w index).map fun r => (.struct (vs.set x r.1), r.2)
    | _, _ => none
  | false, .ptr (.struct ts), .ptr (.struct vs), x :: index =>
    match ts[x]?, vs[x]? with
    | some t, some w => (fieldByIndex f false t w index).map fun r => (.ptr (.struct (vs.set x r.1)), r.2)
    | _, _ => none
  | false, .ptr (.struct ts), .nil, x :: index =>
    match ts[x]?, (zeros ts)[x]? with
    | some t, some w => (fieldByIndex f false t w index).map fun r => (.ptr (.struct ((zeros ts).set x r.1)), r.2)
    | _, _ => none
  | _, _, _, _ => none

/-- The field of an argument that a parameter is stored in (api/rest/host.go:725-732): `Elem` of a nil pointer has no
fields. -/
def nested (f : Val → Val) : Ty → Val → List Nat → Option (Val × Val)
  | .ptr t, .ptr w, index => (fieldByIndex f true t w index).map fun r => (.ptr r.1, r.2)
  | .ptr _, _, _ => none
  | t, v, index => fieldByIndex f true t v index

/-- The parameters of one argument, stored one after the other into a new one (api/rest/host.go:691-694, 710-732). -/
def storeAll (t : Ty) : Val → List (List Nat × Nat) → Option Val
  | v, [] => some v
  | v, p :: ps => (nested (fun _ => .leaf p.2) t v p.1).bind fun r => storeAll t r.1 ps

/-- `fieldByIndex` in the client, whose arguments are addressable only behind a pointer: a nil pointer in one that is not
cannot be set, which panics (api/rest/host.go:56-58). -/
def fetch : Bool → Bool → Ty → Val → List Nat → Option Val
  | _, _, _, v, [] => some v
  | addr, _, .struct ts, .struct vs, x :: index =>
    match ts[x]?, vs[x]? with
    | some t, some w => fetch addr false t w index
    | _, _ => none
  | _, false, .ptr (.struct ts), .ptr (.struct vs), x :: index =>
    match ts[x]?, vs[x]? with
    | some t, some w => fetch true false t w index
    | _, _ => none
  | true, false, .ptr (.struct ts), .nil, x :: index =>
    match ts[x]?, (zeros ts)[x]? with
    | some t, some w => fetch true false t w index
    | _, _ => none
  | _, _, _, _, _ => none

/-- What the client gets of an argument: the field, nothing if the argument is a nil pointer, or a panic
(api/rest/link.go:122-134). -/
inductive Got where
  | field (v : Val)
  | absent
  | panic

/-- `deref` (api/rest/link.go:122-134): pointers at the start are followed, however many. -/
def deref : Bool → Ty → Val → List Nat → Got
  | _, .ptr t, .ptr v, index => deref true t v index
  | _, .ptr _, _, _ => .absent
  | addr, t, v, index =>
    match fetch addr true t v index with
    | some y => .field y
    | none => .panic

end Verif.Rest.Field
