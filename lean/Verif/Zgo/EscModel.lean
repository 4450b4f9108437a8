/-!
# zgo escape analysis: model

Models `zgo/internal/escape/{analysis,relation,scanner,scoping}.go` and the one place the result is
used, `StackAllocated` (`zgo/internal/target/zigc/allocations.go:5-10`).

An expression node carries the identity of its syntax node (`source.Location.Node`, an `ast.Node`
pointer) as a number; a variable carries the identity of its `types.Object` (`Unique`) as a number and
whether it is declared at package level (`Identifier.Package`).
-/
namespace Verif.Zgo.Esc

/-- `analysis.go:24-27` (`graphKey`): a syntax node or a variable. -/
inductive Key
  | node (n : Nat)
  | var (u : Nat)
  deriving DecidableEq, Repr

/-- `analysis.go:95-99` (`plan`). -/
structure Plan where
  block : Bool := false
  function : Bool := false
  goroutine : Bool := false
  containment : Bool := false
  accomplices : List Key := []
  deriving DecidableEq, Repr

/-- `analysis.go:114-118`: append every accomplice that is not there yet. -/
def addAll (xs : List Key) : List Key → List Key
  | [] => xs
  | b :: bs => addAll (if b ∈ xs then xs else xs ++ [b]) bs

/-- `analysis.go:101-120` (`plan.route`). -/
def Plan.route (p via : Plan) : Plan :=
  { block := if via.block then true else p.block
    function := if via.function then true else p.function
    goroutine := if via.goroutine then true else p.goroutine
    containment := if via.containment then true else p.containment
    accomplices := addAll p.accomplices via.accomplices }

/-- `analysis.go:22` (`graph`): a Go map, as an association list; `set` replaces or adds. -/
abbrev Graph := List (Key × Plan)

/-- Go's `g[k]` with the second result (`analysis.go:84`). -/
def Graph.find (g : Graph) (k : Key) : Option Plan :=
  match g with
  | [] => none
  | (k', p) :: rest => if k' = k then some p else Graph.find rest k

/-- Go's `g[k]` with one result: the zero plan when the key is missing (`analysis.go:34`,
`:45-46`, `:53-54`). -/
def Graph.at (g : Graph) (k : Key) : Plan := (g.find k).getD {}

/-- Go's `g[k] = p` (`analysis.go:34`, `:45-46`, `:53-54`, `:91`). -/
def Graph.set (g : Graph) (k : Key) (p : Plan) : Graph :=
  match g with
  | [] => [(k, p)]
  | (k', q) :: rest => if k' = k then (k, p) :: rest else (k', q) :: Graph.set rest k p

/-- What the scanner does to the graph, in order. The Go code performs each of these at once on the
shared map; here the scanner lists them and `run` performs them in the same order (`analysis.go:32-54`). -/
inductive Op
  /-- `analysis.go:32-35` (`Route`): mark a syntax node. -/
  | route (n : Nat) (via : Plan)
  /-- `analysis.go:39-47` (`Together`): link two syntax nodes. -/
  | together (a b : Nat)
  /-- `analysis.go:50-54` (`InformationForDefinedVariable`): link a variable with the syntax node of
  this use and attach the questions to the use. -/
  | info (u : Nat) (n : Nat)
  deriving DecidableEq, Repr

/-- Link two keys both ways: `analysis.go:45-46`, `:53-54`. -/
def Graph.link (g : Graph) (a b : Key) : Graph :=
  let g := g.set a ((g.at a).route { accomplices := [b] })
  g.set b ((g.at b).route { accomplices := [a] })

/-- `analysis.go:32-54`, one operation. -/
def Op.apply (g : Graph) : Op → Graph
  | .route n via => g.set (.node n) ((g.at (.node n)).route via)
  | .together a b => if a = b then g else g.link (.node a) (.node b)
  | .info u n => g.link (.var u) (.node n)

/-- `analysis.go:14-20` (`Analysis`): start from the empty graph. -/
def run (ops : List Op) : Graph := ops.foldl Op.apply []

/-- `analysis.go:79-93` (`get`): walk the accomplices depth first, with a shared `seen` set, and
cache what was found in the graph. The first argument bounds the depth of the recursion; the Go code
has none (`get_depth` shows that one more than the number of keys is always enough). -/
def get : Nat → Graph × List Key → Key → Plan × (Graph × List Key)
  | 0, s, _ => ({}, s)
  | n + 1, (g, seen), k =>
    if k ∈ seen then ({}, (g, seen))
    else
      match g.find k with
      | none => ({}, (g, k :: seen))
      | some p =>
        let r := p.accomplices.foldl
          (fun (acc : Plan × (Graph × List Key)) a =>
            let q := get n acc.2 a
            (acc.1.route q.1, q.2))
          (p, (g, k :: seen))
        (r.1, (r.2.1.set k r.1, r.2.2))

/-- `analysis.go:55-76`: one question about a variable, against the graph as the earlier questions
left it; the answer and the graph afterwards. -/
def ask (g : Graph) (u : Nat) : Plan × Graph :=
  let r := get (g.length + 1) (g, []) (.var u)
  (r.1, r.2.1)

/-! ## Go source as the scanner sees it -/

/-- `source.DefinedVariable` (`source/general.go:134-151`). -/
structure Var where
  unique : Nat
  package : Bool
  deriving DecidableEq, Repr

/-- The kinds of result type `RoutesForStatementReturn` tells apart (`analysis.go:176-183`). -/
inductive Ty
  | string
  | basic
  | reference  -- channel, function, interface, map, pointer, slice
  | other      -- struct, array
  deriving DecidableEq, Repr

/-- The statements that only contain other statements and expressions, scanned in order:
`scanner.go:143-218`, `relation.go:107-111`. -/
inductive Nesting
  | block | ifS | forS | switchS | clause | select | label
  deriving DecidableEq, Repr

mutual
/-- `source.Expression` (`source/expressions.go`). Simplified: the one-operand forms (parentheses,
unary operators other than `&`, `*x`, `x.(T)`, `...x`) are `wrap`; index, index list and slice
expressions are `index`. -/
inductive Expr
  | leaf (n : Nat)
  | var (n : Nat) (v : Var)
  | amp (n : Nat) (x : Expr)
  | wrap (n : Nat) (x : Expr)
  | binary (n : Nat) (x y : Expr)
  | selector (n : Nat) (x sel : Expr)
  | index (n : Nat) (x : Expr) (is : List Expr)
  | keyValue (n : Nat) (k v : Expr)
  | composite (n : Nat) (es : List Expr)
  | function (n : Nat) (body : List Stmt)
  | await (n : Nat) (c : Expr)
  | call (n : Nat) (f : Expr) (args : List Expr)
/-- `source.Statement` (`source/statements.go`). -/
inductive Stmt
  | empty
  /-- `x++`, `x--` -/
  | bump (x : Expr)
  | assign (define : Bool) (vars vals : List Expr)
  /-- `var v T = value` inside a function, or at package level -/
  | define (n : Nat) (v : Var) (value : Option Expr)
  | expr (e : Expr)
  /-- `go f(args)`, `defer f(args)` -/
  | spawn (f : Expr) (args : List Expr)
  | ret (tys : List Ty) (results : List Expr)
  | send (c v : Expr)
  | range (key val : Option (Nat × Var)) (x : Expr) (body : List Stmt)
  | nest (k : Nesting) (pre : List Stmt) (es : List Expr) (post : List Stmt)
end

/-- `source.LocationOf(e).Node` (`analysis.go:33`, `:40-41`, `:52`). -/
def Expr.id : Expr → Nat
  | .leaf n | .var n _ | .amp n _ | .wrap n _ | .binary n _ _ | .selector n _ _ | .index n _ _
  | .keyValue n _ _ | .composite n _ | .function n _ | .await n _ | .call n _ _ => n

/-- `analysis.go:201-214` (`isGlobal`). -/
def isGlobal : Expr → Bool
  | .var _ v => v.package
  | .selector _ _ (.var _ v) => v.package
  | _ => false

/-- `scoping.go:5-7` (`isOuterScopeTo`). -/
def isOuterScopeTo (_value : Expr) : Bool := false

/-- `scoping.go:9-11` (`isFunctionDefined`). -/
def isFunctionDefined (_value : Expr) : Bool := false

/-- `analysis.go:126-131`: the plan of a call argument. -/
def argPlan : Plan := { block := true, function := true, goroutine := true, containment := true }

/-- `analysis.go:155-159`: the plan of the value assigned to `x`. -/
def assignPlan (x : Expr) : Plan :=
  { block := isOuterScopeTo x, containment := isGlobal x, function := isFunctionDefined x }

/-- `analysis.go:176-183`: is a result of this type marked? -/
def Ty.marked : Ty → Bool
  | .string => true
  | .basic => false
  | .reference => true
  | .other => false

/-- `analysis.go:176-183`: the mark a result gets before it is scanned. -/
def retOp (t : Ty) (e : Expr) : List Op :=
  if t.marked then [.route e.id { function := true }] else []

/-- `analysis.go:155-160`: what one value of an assignment does before it is scanned. -/
def assignOps (x v : Expr) : List Op :=
  [.route v.id (assignPlan x), .together x.id v.id]

mutual
/-- `scanner.go:44-89` (`RoutesForExpression`) with `relation.go` and `analysis.go:123-135`, `:189-192`. -/
def opsE : Expr → List Op
  | .leaf _ => []
  | .var n v => [.info v.unique n]
  | .amp n x => opsE x ++ [.together n x.id]
  | .wrap n x => opsE x ++ [.together n x.id]
  | .binary n x y => opsE x ++ opsE y ++ [.together n x.id, .together n y.id]
  | .selector n x s => opsE x ++ opsE s ++ [.together n x.id, .together n s.id]
  | .index n x is => opsE x ++ opsEs is ++ [.together n x.id]
  | .keyValue n k v => opsE k ++ opsE v ++ [.together n v.id]
  | .composite n es => opsElems n es
  | .function _ body => opsSs body
  | .await _ c => opsE c
  | .call _ f args => opsE f ++ opsArgs args
/-- A list of expressions scanned in order (`relation.go:90-96`). -/
def opsEs : List Expr → List Op
  | [] => []
  | e :: es => opsE e ++ opsEs es
/-- `relation.go:90-96` (`RoutesForExpressionComposite`). -/
def opsElems (n : Nat) : List Expr → List Op
  | [] => []
  | e :: es => .together n e.id :: (opsE e ++ opsElems n es)
/-- `analysis.go:125-133`: the arguments of a call. -/
def opsArgs : List Expr → List Op
  | [] => []
  | e :: es => .route e.id argPlan :: (opsE e ++ opsArgs es)
/-- `analysis.go:154-162`: the values of an assignment, against its variables. -/
def opsVals : List Expr → List Expr → List Op
  | x :: xs, v :: vs => assignOps x v ++ (opsE v ++ opsVals xs vs)
  | _, _ => []
/-- `analysis.go:175-185`: the results of a return statement. -/
def opsRets : List Ty → List Expr → List Op
  | t :: ts, e :: es => retOp t e ++ (opsE e ++ opsRets ts es)
  | _, _ => []
/-- `scanner.go:98-141` (`RoutesForStatement`) and the statements it dispatches to. `x++` and `x--` are
returned as they are (`:99`); of a variable definition only the name is looked at (`:23-26`); of a
range statement only the operand and the body (`relation.go:107-111`). -/
def opsS : Stmt → List Op
  | .empty => []
  | .bump _ => []
  | .assign _ vars vals => opsEs vars ++ opsVals vars vals
  | .define n v _ => [.info v.unique n]
  | .expr e => opsE e
  | .spawn f args => opsE f ++ opsArgs args
  | .ret tys rs => opsRets tys rs
  | .send c v => opsE c ++ opsE v ++ [.together c.id v.id]
  | .range _ _ x body => opsE x ++ opsSs body
  | .nest _ pre es post => opsSs pre ++ opsEs es ++ opsSs post
/-- A list of statements scanned in order (`scanner.go:91-96`). -/
def opsSs : List Stmt → List Op
  | [] => []
  | s :: ss => opsS s ++ opsSs ss
end

/-- `StackAllocated` (`allocations.go:5-10`) of the use (or declaration) `n` of the variable `v`,
where the program did the operations `ops` and the questions `before` were asked earlier. A use the
scanner never reached has no questions attached and counts as stack allocated. -/
def stackAllocatedAfter (ops : List Op) (before : List Nat) (n : Nat) (v : Var) : Bool :=
  let g := before.foldl (fun g u => (ask g u).2) (run ops)
  if Op.info v.unique n ∉ ops then true
  else
    let p := (ask g v.unique).1
    v.package || (!p.function && !p.block && !p.goroutine && !p.containment)

/-- `StackAllocated` in a program (a list of package-level definitions, functions as their bodies)
(`allocations.go:5-10`). -/
def stackAllocated (prog : List Stmt) (before : List Nat) (n : Nat) (v : Var) : Bool :=
  stackAllocatedAfter (opsSs prog) before n v

end Verif.Zgo.Esc
