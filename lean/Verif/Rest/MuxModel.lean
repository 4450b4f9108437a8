/-!
# Model of the REST router

Models `/repo/api/rest/path.go`. Go strings are lists of characters (every separator the
code looks for is one ASCII byte, so bytes and characters split at the same places). A Go
map from strings to handlers is an association list read and written by key. The pointer
`for404`, which all routers of one tree share, is not part of the tree: the outcome
`notFound` stands for the call of that handler, which is never nil under
`rest.Handler` (host.go:537-539).
-/
namespace Verif.Rest

/-- Go strings (`path.go:27, 57`). -/
abbrev Str := List Char

/-- `strings.Cut` with a one-byte separator: before, after, found (path.go:27,34,58). -/
def cut (sep : Char) : Str → Str × Str × Bool
  | [] => ([], [], false)
  | c :: s => if c = sep then ([], s, true) else
      let r := cut sep s
      (c :: r.1, r.2.1, r.2.2)

/-- `strings.TrimPrefix(path, "/")` (path.go:32,57). -/
def trimSlash : Str → Str
  | '/' :: s => s
  | s => s

/-- `strings.Split` with a one-byte separator (path.go:46). -/
def split (sep : Char) : Str → List Str
  | [] => [[]]
  | c :: s => if c = sep then [] :: split sep s else
      match split sep s with
      | [] => [[c]]
      | x :: xs => (c :: x) :: xs

/-- `strings.Join` with a one-byte separator (path.go:47). -/
def join (sep : Char) : List Str → Str
  | [] => []
  | [x] => x
  | x :: y :: xs => x ++ sep :: join sep (y :: xs)

theorem split_ne_nil (sep : Char) (s : Str) : split sep s ≠ [] := by
  cases s with
  | nil => simp [split]
  | cons c s => simp only [split]; split
                · simp
                · split <;> simp

theorem join_split (sep : Char) (s : Str) : join sep (split sep s) = s := by
  induction s with
  | nil => rfl
  | cons c s ih =>
    rw [split]
    split
    · next h =>
      cases hs : split sep s with
      | nil => exact absurd hs (split_ne_nil _ _)
      | cons x xs => rw [hs] at ih; simp [join, ih, h]
    · cases hs : split sep s with
      | nil => exact absurd hs (split_ne_nil _ _)
      | cons x xs =>
        rw [hs] at ih
        cases xs with
        | nil => simpa [join] using ih
        | cons y ys => simpa [join] using ih

/-- Dropping the first piece of a split and joining the rest is what follows the first
separator: lets the model recurse on `cut` (path.go:46-47). -/
theorem join_tail_split (sep : Char) (s : Str) : join sep (split sep s).tail = (cut sep s).2.1 := by
  induction s with
  | nil => rfl
  | cons c s ih =>
    rw [split, cut]
    split
    · simpa using join_split sep s
    · cases hs : split sep s with
      | nil => exact absurd hs (split_ne_nil _ _)
      | cons x xs => rw [hs] at ih; simpa using ih

theorem cut_after_le (sep : Char) (s : Str) : (cut sep s).2.1.length ≤ s.length := by
  induction s with
  | nil => simp [cut]
  | cons c s ih => rw [cut]; split <;> simp; omega

theorem cut_after_lt (sep : Char) (s : Str) (h : s ≠ []) :
    (cut sep s).2.1.length < s.length := by
  cases s with
  | nil => exact absurd rfl h
  | cons c s =>
    rw [cut]
    have := cut_after_le sep s
    split <;> simp <;> omega

theorem trimSlash_le (s : Str) : (trimSlash s).length ≤ s.length := by
  unfold trimSlash; split <;> simp

mutual
/-- `http.Handler`: a handler of the user, or a router of the tree with its routes and the
names of its parameter (`mux`, path.go:8-12). -/
inductive Node (H : Type) where
  | leaf (h : H)
  | mux (routes : Routes H) (values : List Str)
/-- `map[string]http.Handler` (path.go:9): the nil map and the empty map read alike. -/
inductive Routes (H : Type) where
  | nil
  | cons (key : Str) (n : Node H) (rest : Routes H)
end

variable {H : Type}

/-- `m.routes[k]` (path.go:40,67,73). -/
def Routes.find : Routes H → Str → Option (Node H)
  | .nil, _ => none
  | .cons k n rest, key => if k = key then some n else rest.find key

/-- `m.routes[k] = n` (path.go:44,53). -/
def Routes.set : Routes H → Str → Node H → Routes H
  | .nil, key, n => .cons key n .nil
  | .cons k n' rest, key, n =>
      if k = key then .cons k n rest else .cons k n' (rest.set key n)

/-- The segment a pattern starts with: the key it is filed under and, for `{name}`, the
name (path.go:35-39; the test is for more than two bytes, so `{}` is a literal). -/
def segOf (this : Str) : Str × Str :=
  if 2 < this.length ∧ this.head? = some '{' ∧ this.getLast? = some '}' then
    ([], (this.drop 1).dropLast)
  else (this, [])

/-- `router, ok := m.routes[this].(*mux)` and the fresh router when it is not one
(path.go:40-45): routes and names of the router that will be extended. -/
def childOf (r : Routes H) (key : Str) : Routes H × List Str :=
  match r.find key with
  | some (.mux cr vs) => (cr, vs)
  | _ => (.nil, [])

/-- `Handle` after the pattern was cut (path.go:32-53). The recursive call joins method and
remaining path with a space only to cut them apart again (path.go:27,47), which
`cut_rejoin` in the lemmas shows to be the identity. -/
def handlePath (method : Str) (path : Str) (h : H) (r : Routes H) : Routes H :=
  if hp : trimSlash path ≠ [] then
    let this := cut '/' (trimSlash path)
    let key := (segOf this.1).1
    let child := childOf r key
    let routes := handlePath method this.2.1 h child.1
    r.set key (.mux routes (if key = [] then child.2 ++ [(segOf this.1).2] else child.2))
  else r.set method (.leaf h)
  termination_by path.length
  decreasing_by
    exact Nat.lt_of_lt_of_le (cut_after_lt '/' (trimSlash path) hp) (trimSlash_le path)

/-- `Handle` (path.go:20-54): without a space the whole pattern is the path. -/
def handle (r : Routes H) (pattern : Str) (h : H) : Routes H :=
  let c := cut ' ' pattern
  if c.2.2 then handlePath c.1 c.2.1 h r else handlePath [] c.1 h r

/-- The parts of a request the router reads and writes: `r.Method`, `r.URL.Path`,
`r.URL.RawPath` and the values given to `SetPathValue`, latest first (`path.go:57-86`). -/
structure Req where
  method : Str
  path : Str
  rawPath : Str := []
  values : List (Str × Str) := []
deriving DecidableEq

/-- `r.PathValue(name)`: the value set last, or the empty string (`set at path.go:77, read at host.go:773`). -/
def Req.pathValue (r : Req) (name : Str) : Str :=
  ((r.values.find? (fun p => p.1 = name)).map Prod.snd).getD []

/-- What became of a request: the handler called and the request it saw, or the not-found
handler and the request it saw (`path.go:70, 82, 86`). -/
inductive Out (H : Type) where
  | handled (h : H) (req : Req)
  | notFound (req : Req)

/-- `for _, name := range v.values { r.SetPathValue(name, this) }` (path.go:74-79); nothing
is set when the handler is no router. -/
def bindValues (n : Node H) (this : Str) (req : Req) : Req :=
  match n with
  | .leaf _ => req
  | .mux _ vs => { req with values := (vs.map (fun n => (n, this))).reverse ++ req.values }

/-- The segment `ServeHTTP` looks up: the first of the path, or the method when that is
empty (path.go:57-61). -/
def thisOf (req : Req) : Str :=
  let before := (cut '/' (trimSlash req.path)).1
  if before = [] then req.method else before

/-- The request passed down one level (path.go:62-66,68-69,80-81). -/
def down (req : Req) : Req :=
  let c := cut '/' (trimSlash req.path)
  { req with rawPath := req.path, path := if c.2.2 then '/' :: c.2.1 else ['/'] }

mutual
/-- `ServeHTTP` (path.go:56-87): the segment itself first, then the parameter route, then
the not-found handler, which is given RawPath as Path. -/
def Node.serve : Node H → Req → Out H
  | .leaf h, req => .handled h req
  | .mux routes _, req =>
    match routes.serveKey (thisOf req) (down req) with
    | some o => o
    | none =>
      match routes.serveParam (thisOf req) (down req) with
      | some o => o
      | none => .notFound { req with path := req.rawPath }
/-- Lookup of a key and the call of the handler found (path.go:67-72). -/
def Routes.serveKey : Routes H → Str → Req → Option (Out H)
  | .nil, _, _ => none
  | .cons k n rest, key, req => if k = key then some (n.serve req) else rest.serveKey key req
/-- Lookup of the parameter route, binding its names (path.go:73-84). -/
def Routes.serveParam : Routes H → Str → Req → Option (Out H)
  | .nil, _, _ => none
  | .cons k n rest, this, req =>
      if k = [] then some (n.serve (bindValues n this req)) else rest.serveParam this req
end

/-- A router on which the given patterns were registered in order (host.go:544-546). -/
def router (ps : List (Str × H)) : Node H :=
  .mux (ps.foldl (fun r p => handle r p.1 p.2) .nil) []

end Verif.Rest
