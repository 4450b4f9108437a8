import Verif.Oas.Model
/-!
# The form of a resource: model

`formHandler.ServeHTTP` (`api/rest/form.go:26-123`) with the schema as its own registry (`Schema.Lookup`,
`Schema.Register`, `api/internal/oas/oas.go:478-497`). The page is the list of its tabs; its texts are left out, and so
is what `form.js` makes of the schema.
-/
namespace Verif.Oas.Form
open Verif.Oas

/-- The declarations as a schema that is its own registry sees them: by their names alone
(`schema.Defs[name]`, `oas.go:478-497`; the namespace is not looked at). -/
def flat (env : Env) : Env := env.map fun d => { d with pkg := [] }

/-- An argument of a function: its name, its type, and whether it is in the body (`form.go:54`, `:60`). -/
structure Param where
  name : Name
  ty : Ty
  inBody : Bool

/-- An operation: its arguments, and whether the body is an object of them (`rest.go:361-380`, `:421`). -/
structure Op where
  params : List Param
  mapped : Bool

/-- The operation of a method that the resource does not have: the zero value (`form.go:49`). -/
def noOp : Op := ⟨[], false⟩

/-- The arguments in the body (`form.go:53-57`, `:59-62`). -/
def Op.body (op : Op) : List Param := op.params.filter (·.inBody)

/-- The assignments to `schema.Properties` (`form.go:53-57`). -/
def propsOf : List Name → List Schema → Props
  | n :: ns, s :: ss => .cons n s (propsOf ns ss)
  | [], _ => .nil
  | _ :: _, [] => .nil

/-- `schemaFor(nil, t)` (`docs.go:443-641`): the schema is its own registry, and a declared type is written out. For a
pointer the schema of what it points to is returned, without the one it was registered in (`docs.go:580-581`). -/
def whole (env : Env) (n : Nat) : Ty → Option (Schema × Reg)
  | .named id =>
    match (flat env)[id]? with
    | none => none
    | some d =>
      match schemaWith (flat env) (visit (flat env) n) d.body noSchemas with
      | none => none
      | some (s, defs) => if isPointer d.body then some (s, noSchemas) else some (s, defs)
  | .pointer t =>
    match schemaWith (flat env) (visit (flat env) n) t noSchemas with
    | none => none
    | some (s, _) => some (s, noSchemas)
  | t => schemaWith (flat env) (visit (flat env) n) t noSchemas

/-- The schema of an operation's body (`form.go:43-64`). -/
def schemaOf (env : Env) (n : Nat) (op : Op) : Option (Schema × Reg) :=
  if op.mapped then
    match document (flat env) n noSchemas (op.body.map (·.ty)) with
    | some (ss, defs) => some (.obj (propsOf (op.body.map (·.name)) ss) [], defs)
    | none => none
  else
    match op.body with
    | [] => some (.any, noSchemas)
    | p :: _ => whole env n p.ty

/-- What the handler answers (`form.go:42-122`). -/
inductive Answer
  | badRequest
  | schema (s : Option (Schema × Reg))
  | page (tabs : List Name)
  | notFound

/-- The operations of a resource by their methods (`resource.Operations`, `form.go:32`). -/
abbrev Ops := Name → Option Op

/-- The methods that have a tab (`form.go:28-30`). -/
def order : List Name := [['G', 'E', 'T'], ['P', 'O', 'S', 'T'], ['P', 'U', 'T'], ['D', 'E', 'L', 'E', 'T', 'E']]

/-- `methods` (`form.go:31-36`). -/
def tabs (ops : Ops) : List Name := order.filter fun m => (ops m).isSome

/-- `ServeHTTP` (`form.go:26-123`), by what the `Accept` header mentions and the `method` of the query. -/
def serve (env : Env) (n : Nat) (ops : Ops) (wantsSchema wantsPage : Bool) (method : Name) : Answer :=
  if wantsSchema then
    if method = [] then .badRequest else .schema (schemaOf env n ((ops method).getD noOp))
  else if wantsPage then .page (tabs ops)
  else .notFound

end Verif.Oas.Form
