/-!
# OpenAPI schemas: model

`schemaFor`, `addFieldsToSchema`, `namespaceName` (`api/rest/docs.go:337-387`, `:437-440`, `:443-641`) with
the document as the registry (`Document.Lookup`, `Document.Register`, `api/internal/oas/oas.go:445-476`).

Left out: types with methods that change their schema (`TypeJSON`, `TypesJSON`, `ValuesJSON`, `MarshalText`,
`Min`, `Max`, `Example`), `const` tags, iterators, channels, names of generic types, and the keywords that do
not restrict values (`title`, `description`, `format`).
-/
namespace Verif.Oas

/-- Names of packages, types and fields (`namespaceName`, `docs.go:437-440`). -/
abbrev Name := List Char

/-- The numeric kinds of Go (`docs.go:521-561`). -/
inductive Num
  | int8 | int16 | int32 | int64 | int
  | uint8 | uint16 | uint32 | uint64 | uint
  | float32 | float64
  deriving DecidableEq, Repr

mutual
/-- A Go type. A type with a name and a package is a number, its declaration is in the environment
(`reflect.Type`, `docs.go:447-450`, by the kinds of `docs.go:518-608`). -/
inductive Ty
  | bool
  | num (k : Num)
  | str
  /-- an interface -/
  | any
  | slice (t : Ty)
  | array (n : Nat) (t : Ty)
  | map (key t : Ty)
  | pointer (t : Ty)
  | struct (fs : Fields)
  | named (id : Nat)

/-- The fields of a struct. Structs embedded by value are written out (`docs.go:340-348`). -/
inductive Fields
  | nil
  /-- `field T` with the name in the `json` tag (`none` if there is none) and whether it has `omitempty` or
  `omitzero`; fields that are not exported or have the name `-` are left out. -/
  | cons (field : Name) (tag : Option Name) (opt : Bool) (t : Ty) (rest : Fields)
  /-- an embedded struct type with this name (exported), the name in its `json` tag, and its fields -/
  | embed (typeName : Name) (tag : Option Name) (inner rest : Fields)
end

/-- A declared type: the path of its package, its name, its underlying type
(`rtype.PkgPath()`, `rtype.Name()`, `docs.go:438`). -/
structure Decl where
  pkg : Name
  name : Name
  body : Ty

/-- The declarations of a program (`rtype`, `docs.go:447-450`). -/
abbrev Env := List Decl

/-- The two names a schema is registered with (`docs.go:437-440`, `:468`). -/
abbrev Key := Name × Name

mutual
/-- A JSON schema, by the keywords that are used together (`oas.Schema` as filled in at `docs.go:476-607`). -/
inductive Schema
  /-- `{}` -/
  | any
  /-- `{"$ref": "#/components/schemas/<1>/$defs/<2>"}` -/
  | ref (k : Key)
  | bool
  /-- `{"type": "integer", "minimum": …, "maximum": …}` -/
  | int (min max : Option Int)
  | number
  | str
  /-- `{"type": "array", "items": …, "maxItems": …}`, 0 for no `maxItems` (`omitempty`) -/
  | arr (items : Schema) (maxItems : Nat)
  /-- `{"type": "object", "propertyNames": …, "additionalProperties": …}` -/
  | map (names values : Schema)
  /-- `{"type": "object", "properties": …, "required": …}` -/
  | obj (ps : Props) (required : List Name)

/-- The assignments to a map of properties, in order (`schema.Properties`, `docs.go:605`). -/
inductive Props
  | nil
  | cons (name : Name) (s : Schema) (rest : Props)
end

/-- The value of a key after the assignments: the last one counts (`schema.Properties`, `docs.go:605`). -/
def Props.find : Props → Name → Option Schema
  | .nil, _ => none
  | .cons n s rest, k =>
    match rest.find k with
    | some s' => some s'
    | none => if n = k then some s else none

/-- The assignments of one list after those of another (`docs.go:337-387`). -/
def Props.append : Props → Props → Props
  | .nil, q => q
  | .cons n s rest, q => .cons n s (rest.append q)

/-- `doc.Components.Schemas[namespace].Defs[name]` (`oas.go:445-476`). -/
abbrev Reg := Key → Option Schema

/-- The registry with one more schema (`Register`, `oas.go:460-476`). -/
def Reg.set (r : Reg) (k : Key) (s : Schema) : Reg := fun k' => if k' = k then some s else r k'

/-- `path.Base` of a path that does not end with `/`: what is after the last `/`; `.` for an empty path
(`docs.go:438`). -/
def base (p : Name) : Name :=
  if p = [] then ['.'] else (p.reverse.takeWhile (· ≠ '/')).reverse

/-- `namespaceName` (`docs.go:437-440`). -/
def Decl.key (d : Decl) : Key := (base d.pkg, d.name)

/-- The schema of a number (`docs.go:521-561`). -/
def numSchema : Num → Schema
  | .int8 => .int (some (-128)) (some 127)
  | .int16 => .int (some (-32768)) (some 32767)
  | .int32 => .int none none
  | .int64 => .int none none
  | .int => .int none none
  | .uint8 => .int (some 0) (some 255)
  | .uint16 => .int (some 0) (some 65535)
  | .uint32 => .int (some 0) (some 4294967295)
  | .uint64 => .int (some 0) (some 18446744073709551616)   -- the constant as a float64
  | .uint => .int (some 0) none
  | .float32 => .number
  | .float64 => .number

/-- `docs.go:349-359`: the name of a property; an empty name in the tag counts as none. -/
def propName (field : Name) (tag : Option Name) : Name :=
  match tag with
  | none => field
  | some [] => field
  | some t => t

/-- `rtype.Kind()` is `Bool` or `Pointer` (`docs.go:374`). -/
def boolOrPointer (env : Env) : Ty → Bool
  | .bool => true
  | .pointer _ => true
  | .named id =>
    match env[id]? with
    | some d =>
      match d.body with
      | .bool => true
      | .pointer _ => true
      | _ => false
    | none => false
  | _ => false

/-- `docs.go:374`. -/
def isRequired (env : Env) (opt : Bool) (t : Ty) : Bool := !opt && !boolOrPointer env t

/-- The names of the struct's own properties (`docs.go:380`, `processed`). -/
def ownNames : Fields → List Name
  | .nil => []
  | .cons f tag _ _ rest => propName f tag :: ownNames rest
  | .embed _ _ _ rest => ownNames rest

/-- What a type's schema is, and the registry afterwards; `none` if it takes too long (`docs.go:443`). -/
abbrev Visit := Reg → Nat → Option (Schema × Reg)

/-- Two parts of a struct's properties, one after the other (`docs.go:337-387`). -/
def joinFields (ps : Props) (req : List Name) : Option (Props × List Name × Reg) → Option (Props × List Name × Reg)
  | some (ps', req', r) => some (ps.append ps', req ++ req', r)
  | none => none

mutual
/-- `schemaFor` (`docs.go:443-641`); `visit` is what it does for declared types. -/
def schemaWith (env : Env) (visit : Visit) : Ty → Reg → Option (Schema × Reg)
  | .bool, r => some (.bool, r)
  | .num k, r => some (numSchema k, r)
  | .str, r => some (.str, r)
  | .any, r => some (.any, r)
  | .slice t, r =>
    match schemaWith env visit t r with
    | some (s, r) => some (.arr s 0, r)
    | none => none
  | .array n t, r =>
    match schemaWith env visit t r with
    | some (s, r) => some (.arr s n, r)
    | none => none
  | .map key t, r =>
    match schemaWith env visit key r with
    | some (names, r) =>
      match schemaWith env visit t r with
      | some (s, r) => some (.map names s, r)
      | none => none
    | none => none
  | .pointer t, r => schemaWith env visit t r
  | .struct fs, r =>
    match addOwn env visit fs r with
    | some (ps, req, r) =>
      match joinFields ps req (addEmbedded env visit fs (ownNames fs) r) with
      | some (ps, req, r) => some (.obj ps req, r)
      | none => none
    | none => none
  | .named id, r => visit r id

/-- `addFieldsToSchema`, the struct's own fields (`docs.go:338-381`). -/
def addOwn (env : Env) (visit : Visit) : Fields → Reg → Option (Props × List Name × Reg)
  | .nil, r => some (.nil, [], r)
  | .cons f tag opt t rest, r =>
    match schemaWith env visit t r with
    | some (s, r) =>
      joinFields (.cons (propName f tag) s .nil) (if isRequired env opt t then [propName f tag] else [])
        (addOwn env visit rest r)
    | none => none
  | .embed _ _ _ rest, r => addOwn env visit rest r

/-- `addFieldsToSchema`, the embedded structs (`docs.go:382-386`): their fields, in the same way, unless a
property of the struct itself has the name of their type; `own` are the names of the struct's properties. -/
def addEmbedded (env : Env) (visit : Visit) : Fields → List Name → Reg → Option (Props × List Name × Reg)
  | .nil, _, r => some (.nil, [], r)
  | .cons _ _ _ _ rest, own, r => addEmbedded env visit rest own r
  | .embed typeName _ inner rest, own, r =>
    if typeName ∈ own then addEmbedded env visit rest own r
    else
      match addOwn env visit inner r with
      | some (ps, req, r) =>
        match joinFields ps req (addEmbedded env visit inner (ownNames inner) r) with
        | some (ps, req, r) => joinFields ps req (addEmbedded env visit rest own r)
        | none => none
      | none => none
end

/-- A pointer type (`docs.go:571`). -/
def isPointer : Ty → Bool
  | .pointer _ => true
  | _ => false

/-- `docs.go:468-487`, `:634-641`: a declared type is registered, empty, before its schema is made; afterwards
a reference is returned, except for a declared pointer type, whose element's schema is returned (`:580-581`) and
whose own schema stays empty. The number bounds the nesting. -/
def visit (env : Env) : Nat → Visit
  | 0, _, _ => none
  | n + 1, r, id =>
    match env[id]? with
    | none => none
    | some d =>
      if (r d.key).isSome then some (.ref d.key, r)
      else
        match schemaWith env (visit env n) d.body (r.set d.key .any) with
        | none => none
        | some (s, r') => if isPointer d.body then some (s, r') else some (.ref d.key, r'.set d.key s)

/-- `schemaFor(spec, t)` for one type (`docs.go:443-641`). -/
def schemaFor (env : Env) (n : Nat) (r : Reg) (t : Ty) : Option (Schema × Reg) :=
  schemaWith env (visit env n) t r

/-- The types of an API's parameters, bodies and results one after the other (`docs.go:204-335`). -/
def document (env : Env) (n : Nat) : Reg → List Ty → Option (List Schema × Reg)
  | r, [] => some ([], r)
  | r, t :: ts =>
    match schemaFor env n r t with
    | some (s, r) =>
      match document env n r ts with
      | some (ss, r) => some (s :: ss, r)
      | none => none
    | none => none

/-- A new document has no schemas (`oas.go:446-448`). -/
def noSchemas : Reg := fun _ => none

end Verif.Oas
