/-!
# Model of the registry of schemas as text

Models `Document.Lookup` and `Document.Register` (/repo/api/internal/oas/oas.go:445-476) with the text of the references they
make, and where the schemas are in the JSON of the document (the `json` tags of oas.go:29, 83 and 323). Other members of the
document are left out.
-/
namespace Verif.Oas.Ref

/-- Texts. -/
abbrev Str := List Char

/-- `m[k] = v` on a Go map, as a list of its entries (oas.go:474-475). -/
def assign {V : Type} (k : Str) (v : V) : List (Str × V) → List (Str × V)
  | [] => [(k, v)]
  | (k', v') :: m => if k' = k then (k, v) :: m else (k', v') :: assign k v m

/-- `m[k]` (oas.go:449, 453, 467). -/
def get {V : Type} (k : Str) : List (Str × V) → Option V
  | [] => none
  | (k', v) :: m => if k' = k then some v else get k m

/-- The schema that stands for a package: its `Defs`, nil or a map (oas.go:323). -/
structure PkgSchema (S : Type) where
  /-- `$defs` -/
  defs : Option (List (Str × S))

/-- The components of a document: `Schemas`, nil or a map (oas.go:83). -/
structure Components (S : Type) where
  /-- `schemas` -/
  schemas : Option (List (Str × PkgSchema S))

/-- A document: its components, nil at first (oas.go:29). -/
structure Doc (S : Type) where
  /-- `components` -/
  components : Option (Components S)

/-- The text of the reference (oas.go:457). -/
def refText (ns name : Str) : Str :=
  ['#', '/', 'c', 'o', 'm', 'p', 'o', 'n', 'e', 'n', 't', 's', '/', 's', 'c', 'h', 'e', 'm', 'a', 's', '/'] ++ ns ++
    ['/', '$', 'd', 'e', 'f', 's', '/'] ++ name

/-- `pkg.Defs[name]` of a map that may be nil (oas.go:453). -/
def defOf {S : Type} (p : PkgSchema S) (name : Str) : Option S :=
  match p.defs with
  | none => none
  | some m => get name m

/-- `Lookup` (oas.go:445-458): the text of the reference. -/
def lookup {S : Type} (d : Doc S) (ns name : Str) : Option Str :=
  match d.components with
  | none => none
  | some c =>
    match get ns (c.schemas.getD []) with
    | none => none
    | some p =>
      match defOf p name with
      | none => none
      | some _ => some (refText ns name)

/-- `Register` (oas.go:460-476). -/
def register {S : Type} (d : Doc S) (ns name : Str) (s : S) : Doc S :=
  let c := d.components.getD { schemas := none }
  let m := c.schemas.getD []
  let p := (get ns m).getD { defs := none }
  { components := some { schemas := some (assign ns { defs := some (assign name s (p.defs.getD [])) } m) } }

/-- A JSON value down to the schemas (oas.go:29, 83, 323). -/
inductive Tree (S : Type) where
  | obj (members : List (Str × Tree S))
  | schema (s : S)

/-- The JSON of a package's schema; nil and empty maps are omitted (oas.go:323). -/
def PkgSchema.json {S : Type} (p : PkgSchema S) : Tree S :=
  match p.defs with
  | none => .obj []
  | some [] => .obj []
  | some (x :: m) => .obj [(['$', 'd', 'e', 'f', 's'], .obj ((x :: m).map fun e => (e.1, .schema e.2)))]

/-- The JSON of the components (oas.go:83). -/
def Components.json {S : Type} (c : Components S) : Tree S :=
  match c.schemas with
  | none => .obj []
  | some [] => .obj []
  | some (x :: m) => .obj [(['s', 'c', 'h', 'e', 'm', 'a', 's'], .obj ((x :: m).map fun e => (e.1, e.2.json)))]

/-- The JSON of the document (oas.go:29). -/
def Doc.json {S : Type} (d : Doc S) : Tree S :=
  match d.components with
  | none => .obj []
  | some c => .obj [(['c', 'o', 'm', 'p', 'o', 'n', 'e', 'n', 't', 's'], c.json)]

end Verif.Oas.Ref
