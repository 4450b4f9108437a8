/-!
# The JavaScript client: model

`sdkFor` (`api/rest/code.go:16-185`) writes a JavaScript module for an API document. The text is modelled as its
statements; layout, comments and the JSON headers of requests are left out.
-/
namespace Verif.Sdk

/-- Texts (`code.go:17-22`). -/
abbrev Str := List Char

/-- The operations of a path item the generator looks at (`code.go:42-60`). -/
inductive Meth
  | get | post | put | delete | patch | options
  deriving DecidableEq

/-- `m.Name` (`code.go:142-148`), `GET` (`code.go:131`). -/
def Meth.name : Meth → Str
  | .get => ['G', 'E', 'T']
  | .post => ['P', 'O', 'S', 'T']
  | .put => ['P', 'U', 'T']
  | .delete => ['D', 'E', 'L', 'E', 'T', 'E']
  | .patch => ['P', 'A', 'T', 'C', 'H']
  | .options => ['O', 'P', 'T', 'I', 'O', 'N', 'S']

/-- `oas.PathItem`: which of the operations it has (`code.go:42-60`). -/
abbrev Item := Meth → Bool

mutual
/-- `node` (`code.go:17-22`). -/
inductive Node
  | mk (path base : Str) (item : Item) (kids : Kids)

/-- `elem map[string]*node` (`code.go:20`). -/
inductive Kids
  | nil
  | cons (key : Str) (n : Node) (rest : Kids)
end

/-- `newNode` (`code.go:23-29`). -/
def newNode (base path : Str) : Node := .mk path base (fun _ => false) .nil

/-- `strings.Split(path, "/")` (`code.go:31`). -/
def split : Str → List Str
  | [] => [[]]
  | c :: s =>
    if c = '/' then [] :: split s
    else
      match split s with
      | [] => [[c]]
      | w :: ws => (c :: w) :: ws

/-- The node with this key, or a new one, changed (`code.go:37-40`). -/
def Kids.alter (key : Str) (f : Node → Node) (new : Node) : Kids → Kids
  | .nil => .cons key (f new) .nil
  | .cons k n rest => if k = key then .cons k (f n) rest else .cons k n (rest.alter key f new)

/-- The rest of a path below a node (`code.go:31-60`); `pre` is `strings.Join(elems[:i], "/")`. -/
def addAt : List Str → Str → Item → Node → Node
  | [], _, item, .mk p b it kids => .mk p b (fun m => it m || item m) kids
  | key :: rest, pre, item, .mk p b it kids =>
    .mk p b it (kids.alter key (addAt rest (pre ++ '/' :: key) item) (newNode ('/' :: key) (pre ++ '/' :: key)))

/-- `addItem` (`code.go:30-61`). -/
def addItem (n : Node) (path : Str) (item : Item) : Node :=
  match split path with
  | [] => n
  | first :: rest => addAt rest first item n

/-- The tree of a document (`code.go:75-83`). The paths are sorted there; nothing depends on it. -/
def build (docs : List (Str × Item)) : Node :=
  docs.foldl (fun n d => addItem n d.1 d.2) (newNode ['/'] ['/'])

mutual
/-- A statement of the client; targets are the text after `client`, suffixes that after `${path}` (`code.go:85-179`). -/
inductive Stmt
  /-- `client⟨target⟩ = {};` (`code.go:122-125`) -/
  | object (target : Str)
  /-- `client⟨target⟩ = function(value) { let client = {}; let path = …; …; return client; }` (`code.go:108-121`) -/
  | func (target suffix : Str) (body : Block)
  /-- `client⟨target⟩.GET = function(query) { … }` (`code.go:129-137`) -/
  | get (target suffix : Str)
  /-- `client⟨target⟩.POST = function(body) { … }` (`code.go:149-172`) -/
  | call (m : Meth) (target suffix : Str)

/-- The body of a function (`code.go:108-121`). -/
inductive Block
  | nil
  | cons (s : Stmt) (rest : Block)
end

/-- The statements of a body (`code.go:113-117`). -/
def Block.ofList : List Stmt → Block
  | [] => .nil
  | s :: ss => .cons s (ofList ss)

/-- `path` in `walk` (`code.go:91-97`). -/
def pathOf (nested : Bool) (path base : Str) : Str :=
  if nested then (if base.take 2 = ['/', '{'] then [] else base) else path

/-- `converted` (`code.go:98`, `:127`). -/
def converted (path : Str) : Str :=
  if path = ['/'] ∨ path = [] then [] else path.map fun c => if c = '/' then '.' else c

/-- `strings.HasPrefix(key, "{")` (`code.go:102`, `:114`, `:174`). -/
def isParam (key : Str) : Bool := key.head? == some '{'

/-- A key of the node begins with `{` (`code.go:100-105`). -/
def Kids.hasParam : Kids → Bool
  | .nil => false
  | .cons k _ rest => isParam k || rest.hasParam

/-- The functions of a node (`code.go:129-172`). -/
def methods (path : Str) (item : Item) : List Stmt :=
  (if item .get then [.get (converted path) path] else []) ++
  (if item .post then [.call .post (converted path) path] else []) ++
  (if item .put then [.call .put (converted path) path] else []) ++
  (if item .delete then [.call .delete (converted path) path] else []) ++
  (if item .patch then [.call .patch (converted path) path] else []) ++
  (if item .options then [.call .options (converted path) path] else [])

mutual
/-- `walk` (`code.go:85-179`): what it may write for a node. Go visits the nodes below in any order. -/
inductive Emits : Bool → Node → List Stmt → Prop
  /-- The root, and a parameter inside its function: no object of its own; parameters right below are skipped. -/
  | bare {nested path base item kids} {lits perm : List (Str × List Stmt)} (hp : pathOf nested path base = ['/'] ∨ pathOf nested path base = [])
      (hl : EmitsKids nested false kids lits) (hperm : perm.Perm lits) :
      Emits nested (.mk path base item kids) (methods (pathOf nested path base) item ++ (perm.map (·.2)).flatten)
  /-- A node with an object. -/
  | object {nested path base item kids} {lits perm : List (Str × List Stmt)} (hp : ¬ (pathOf nested path base = ['/'] ∨ pathOf nested path base = []))
      (hk : kids.hasParam = false) (hl : EmitsKids nested false kids lits) (hperm : perm.Perm lits) :
      Emits nested (.mk path base item kids)
        (.object (converted (pathOf nested path base)) ::
          (methods (pathOf nested path base) item ++ (perm.map (·.2)).flatten))
  /-- A node with a function, whose body is written for the parameters. -/
  | func {nested path base item kids} {params perm lits perm' : List (Str × List Stmt)}
      (hp : ¬ (pathOf nested path base = ['/'] ∨ pathOf nested path base = []))
      (hk : kids.hasParam = true) (hq : EmitsKids true true kids params) (hqerm : perm.Perm params)
      (hl : EmitsKids nested false kids lits) (hperm : perm'.Perm lits) :
      Emits nested (.mk path base item kids)
        (.func (converted (pathOf nested path base)) (pathOf nested path base) (.ofList (perm.map (·.2)).flatten) ::
          (methods (pathOf nested path base) item ++ (perm'.map (·.2)).flatten))

/-- What is written for each of the parameters, or of the others, below a node (`code.go:113-117`, `:173-178`). -/
inductive EmitsKids : Bool → Bool → Kids → List (Str × List Stmt) → Prop
  | nil {nested params} : EmitsKids nested params .nil []
  | take {nested params key n rest out outs} (hk : isParam key = params) (hn : Emits nested n out)
      (hr : EmitsKids nested params rest outs) : EmitsKids nested params (.cons key n rest) ((key, out) :: outs)
  | skip {nested params key n rest outs} (hk : isParam key = !params)
      (hr : EmitsKids nested params rest outs) : EmitsKids nested params (.cons key n rest) outs
end

/-! ## JavaScript -/

/-- A character of a name; names outside ASCII are left out (ECMAScript, for the targets of `code.go:98`). -/
def nameChar (c : Char) : Bool := c.isAlpha || c.isDigit || c == '_' || c == '$'

/-- A property name after a dot (ECMAScript, for the targets of `code.go:98`). -/
def isIdent (s : Str) : Bool :=
  match s with
  | [] => false
  | c :: _ => !c.isDigit && s.all nameChar

/-- The properties after `client`: `.a.b`. Other texts are taken for syntax errors; JavaScript accepts some of them, such
as `.a[0]` (ECMAScript, for the targets of `code.go:98`). -/
def dots : Str → List Str
  | [] => [[]]
  | c :: s =>
    if c = '.' then [] :: dots s
    else
      match dots s with
      | [] => [[c]]
      | w :: ws => (c :: w) :: ws

/-- The properties of a target (ECMAScript, for the targets of `code.go:98`). -/
def parse (target : Str) : Option (List Str) :=
  match dots target with
  | [] :: ws => if ws.all isIdent then some ws else none
  | _ => none

/-- A property's value (what `code.go:106-172` assigns). -/
inductive Val
  | object
  | func (suffix : Str) (body : Block)
  | get (suffix : Str)
  | call (m : Meth) (suffix : Str)

/-- The client: what is at the end of a chain of properties (`client`, `code.go:74`). -/
abbrev Heap := List Str → Option Val

/-- `let client = {};` (`code.go:74`). -/
def emptyClient : Heap := fun q => if q = [] then some .object else none

/-- `client.p = v;`: a `TypeError` if the object to assign to is undefined
(ECMAScript, for the assignments of `code.go:106-172`). -/
def assign (h : Heap) (p : List Str) (v : Val) : Option Heap :=
  if (h p.dropLast).isSome then
    some fun q => if q = p then some v else if p.isPrefixOf q then none else h q
  else none

mutual
/-- Every target can be parsed (ECMAScript, for the targets of `code.go:98`). -/
def Stmt.valid : Stmt → Bool
  | .object t => (parse t).isSome
  | .func t _ b => (parse t).isSome && b.valid
  | .get t _ => (parse t).isSome
  | .call _ t _ => (parse t).isSome

/-- Every target in it can be parsed (ECMAScript, for the bodies of `code.go:108-121`). -/
def Block.valid : Block → Bool
  | .nil => true
  | .cons s rest => s.valid && rest.valid
end

/-- A statement; `none` for an exception (ECMAScript, for what `code.go:106-172` writes). -/
def exec (h : Heap) : Stmt → Option Heap
  | .object t => (parse t).bind fun p => assign h p .object
  | .func t s b => (parse t).bind fun p => assign h p (.func s b)
  | .get t s => (parse t).bind fun p => assign h (p ++ [Meth.name .get]) (.get s)
  | .call m t s => (parse t).bind fun p => assign h (p ++ [m.name]) (.call m s)

/-- Statements one after the other (ECMAScript, for what `code.go:85-179` writes). -/
def execAll : Heap → List Stmt → Option Heap
  | h, [] => some h
  | h, s :: ss =>
    match exec h s with
    | some h => execAll h ss
    | none => none

/-- `API(host, fetch)`: a module with a syntax error does not load (ECMAScript, for the module of `code.go:64-183`). -/
def load (ss : List Stmt) : Option Heap := if ss.all Stmt.valid then execAll emptyClient ss else none

/-- A request (the call of `fetch`, `code.go:133`, `:157-169`). -/
structure Request where
  url : Str
  method : Str
  deriving DecidableEq

/-- The value of a template that begins with `${path}`: `none` is a `ReferenceError`, for a variable that is not yet
initialised (`code.go:112`, `:133`, `:157`). -/
def template (path : Option Str) (suffix : Str) : Option Str := path.map (· ++ suffix)

/-- What calling a value sends; `none` for an exception. The query of `GET` is made of `object`, which is not defined
(`code.go:131-137`, `:155-171`). -/
def fetches (host : Str) : Val → Option Request
  | .call m s => (template (some host) s).map fun u => ⟨u, m.name⟩
  | .get _ => none
  | .func _ _ => none
  | .object => none

/-- `client.p.m(…)` (a call of what `code.go:131`, `:155` assign). -/
def invoke (host : Str) (h : Heap) (p : List Str) (m : Meth) : Option Request :=
  (h (p ++ [m.name])).bind (fetches host)

/-- `client.p(value)`: the body's `path` shadows the one it is made of, which is not initialised yet
(`code.go:110-112`). -/
def enter (h : Heap) (p : List Str) (value : Str) : Option Heap :=
  match h p with
  | some (.func suffix body) =>
    match template none (suffix ++ '/' :: value) with
    | none => none
    | some _ => execAll emptyClient (list body)
  | _ => none
where
  list : Block → List Stmt
    | .nil => []
    | .cons s rest => s :: list rest

/-- What the promise of a request gives (`code.js:1-8`). -/
inductive Answer
  | null | json | rejected
  deriving DecidableEq

/-- `wrap` (`code.js:1-8`). -/
def wrap (status : Nat) : Answer :=
  if 200 < status ∧ status < 300 then if status = 204 then .null else .json else .rejected

end Verif.Sdk
