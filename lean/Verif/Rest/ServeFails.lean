import Verif.Rest.ServeProps
/-!
# C121: which calls arrive, on concrete types, and which do not

The types of the examples: `int` and `string` of Go, a type of time with `MarshalText` and
`UnmarshalText` whose `%v` prints something else, and a kind of string that marshals itself to
angle brackets.
-/
namespace Verif.Rest.Serve

open Verif.Rest Verif.Rest.Spec

/-- Shorthand for texts. -/
private def S (s : String) : Str := s.toList

/-- The values of the examples. -/
inductive Val where
  | int (i : Int)
  | str (s : Str)
  | time (n : Nat)
deriving DecidableEq

/-- The printed text of a value. -/
def Val.print : Val → Str
  | .int i => printInt i
  | .str s => s
  | .time n => "at ".toList ++ Nat.toDigits 10 n

/-- Go's `int`, with `fmt.Sscanf` and `fmt.Sprintf` (host.go:811, link.go:86,146). -/
def intKind : Kind Val where
  zero := .int 0
  scan := fun s => (scanInt s).map .int
  isZero := fun v => v == .int 0
  print := Val.print

/-- Go's `string` (host.go:791). -/
def strKind : Kind Val where
  zero := .str []
  setString := some .str
  scan := fun _ => none
  isZero := fun v => v == .str []
  print := Val.print

/-- A type of time: text `T7`, printed `at 7` (as `time.Time` prints itself differently from
its `MarshalText`). -/
def timeKind : Kind Val where
  zero := .time 0
  unText := some fun
    | 'T' :: s => (scanNat s).map .time
    | _ => none
  scan := fun _ => none
  isZero := fun v => v == .time 0
  toText := some fun
    | .time n => 'T' :: Nat.toDigits 10 n
    | _ => []
  print := Val.print

/-- A kind of string with `MarshalText` and `UnmarshalText`. -/
def tagKind : Kind Val where
  zero := .str []
  setString := some .str
  unText := some fun
    | '<' :: s => some (.str s.dropLast)
    | _ => none
  scan := fun _ => none
  isZero := fun v => v == .str []
  toText := some fun
    | .str s => '<' :: s ++ ['>']
    | _ => []
  print := Val.print

/-- Every `int` is printed and read back. -/
theorem int_printed (i : Int) (h1 : -2 ^ 63 ≤ i) (h2 : i < 2 ^ 63) : Printed intKind (.int i) where
  noText := ⟨rfl, rfl⟩
  noJSON := ⟨rfl, rfl⟩
  zero := by simp [intKind]
  bytes := fun c hc => (printInt_chars i c hc).1
  empty := fun h => absurd h (printInt_ne i)
  set := by simp [intKind]
  scan := by
    intro _ _
    show (scanInt (printInt i)).map Val.int = some (Val.int i)
    rw [scan_print i h1 h2]; rfl

/-- Every string is printed and read back. -/
theorem str_printed (s : Str) (h : ∀ c ∈ s, IsByte c) : Printed strKind (.str s) where
  noText := ⟨rfl, rfl⟩
  noJSON := ⟨rfl, rfl⟩
  zero := by simp [strKind]
  bytes := h
  empty := by
    intro e
    have : s = [] := e
    rw [this]; rfl
  set := by
    intro f hf
    simp only [strKind, Option.some.injEq] at hf
    subst hf; rfl
  scan := by simp [strKind]

/-- The times have texts that are read back. -/
theorem time_textual (n : Nat) : Textual timeKind (.time n) where
  notString := rfl
  zero := by simp [timeKind]
  both := by
    refine ⟨_, _, rfl, rfl, ?_, ?_, ?_⟩
    · intro c hc
      rcases List.mem_cons.mp hc with rfl | hc
      · unfold IsByte; decide
      · obtain ⟨d, rfl⟩ := toDigits_all n c hc
        exact (digitChar_facts d).2.2.2.1
    · intro h; simp at h
    · show (scanNat (Nat.toDigits 10 n)).map Val.time = some (Val.time n)
      rw [scanNat_toDigits]; rfl

/-! ## A small encoding -/

/-- Writes a value: integers in digits, everything else in quotes. -/
def toyOne : Val → Str
  | .int i => printInt i
  | .str s => '"' :: s ++ ['"']
  | .time n => '"' :: 'T' :: Nat.toDigits 10 n ++ ['"']

/-- An encoding for the examples, like JSON for integers and objects of integers. -/
def toy : Codec Val where
  enc
    | .one v => toyOne v
    | .many vs => '[' :: join ',' (vs.map toyOne) ++ [']']
    | .nilPtr => "null".toList
  encObj := fun fs => '{' :: join ',' (fs.map fun f => f.1 ++ ':' ::
    (match f.2 with | .one v => toyOne v | _ => "null".toList)) ++ ['}']
  dec := fun sh s => match sh with
    | .one k => if k.isZero (.int 0) then (scanInt s).map fun i => (.one (.int i), []) else none
    | _ => none
  decObj := fun fs s => match s with
    | '{' :: s => (fs.zip (split ',' s.dropLast)).mapM fun f =>
        (scanInt (cut ':' f.2).2.1).map fun i => .one (.int i)
    | _ => none

/-- The standard library of the examples: numbers are integers, quotes are put around a text. -/
def std0 : Std := ⟨fun s => (scanInt s).isSome, fun s => '"' :: s ++ ['"']⟩

/-- The same for the client: quotes are taken away. -/
def cstd0 : CStd Val := ⟨fun s => s.tail.dropLast, fun vs => '[' :: join ' ' (vs.map Val.print) ++ [']']⟩

/-- `UnmarshalJSON` of `jsonKind`. -/
def unJson : Str → Option Val
  | '"' :: t => some (.str t.dropLast)
  | s => (scanInt s).map .int

private theorem unJson_of {s : Str} (h : s.head? ≠ some '"') : unJson s = (scanInt s).map .int := by
  unfold unJson
  split
  · exact absurd rfl h
  · rfl

/-- A type with `MarshalJSON` and `UnmarshalJSON` that holds an integer or a string. -/
def jsonKind : Kind Val where
  zero := .str []
  unJSON := some unJson
  scan := fun _ => none
  isZero := fun v => v == .str []
  toJSON := some toyOne
  print := Val.print

private theorem jsonKind_zero (v : Val) : jsonKind.isZero v = true ↔ v = jsonKind.zero := by
  simp [jsonKind]

private theorem scanInt_quote (s : Str) : scanInt ('"' :: s) = none := by
  rfl

/-- Its integers are read back. -/
theorem json_int (i : Int) (h1 : -2 ^ 63 ≤ i) (h2 : i < 2 ^ 63) : Jsonic std0 cstd0 jsonKind (.int i) where
  notString := rfl
  noText := ⟨rfl, rfl⟩
  zero := jsonKind_zero _
  both := by
    have hs : scanInt (printInt i) = some i := scan_print i h1 h2
    have hh : (printInt i).head? ≠ some '"' := by
      intro e
      cases hp : printInt i with
      | nil => rw [hp] at e; cases e
      | cons c t =>
        rw [hp] at e
        injection e with e
        subst e
        rw [hp, scanInt_quote] at hs
        cases hs
    refine ⟨toyOne, _, rfl, rfl, Or.inl ⟨hh, printInt_ne i, fun c hc => (printInt_chars i c hc).1, Or.inl ?_, ?_⟩⟩
    · show (scanInt (printInt i)).isSome = true
      rw [hs]; rfl
    · show unJson (printInt i) = some (.int i)
      rw [unJson_of hh, hs]; rfl

/-- Its strings are read back, unless they are integers or begin with a quote. -/
theorem json_str (s : Str) (h : ∀ c ∈ s, IsByte c) (hs : scanInt s = none) (hq : s.head? ≠ some '"') :
    Jsonic std0 cstd0 jsonKind (.str s) where
  notString := rfl
  noText := ⟨rfl, rfl⟩
  zero := jsonKind_zero _
  both := by
    have hu : cstd0.unquote ('"' :: s ++ ['"']) = s := by simp [cstd0]
    refine ⟨toyOne, _, rfl, rfl, Or.inr ⟨rfl, s, hu, ?_, h, ?_, ?_⟩⟩
    · intro e; subst e; rfl
    · show some (Val.str (s ++ ['"']).dropLast) = _
      simp
    · intro _ w hw
      rw [unJson_of hq, hs] at hw; cases hw

example : Jsonic std0 cstd0 jsonKind (.str "a b&c".toList) :=
  json_str _ (by intro c hc; revert c; unfold IsByte; decide) (by decide) (by decide)

/-- The cells of a call with these arguments. -/
def cellsOf (as : List (Arg Val)) : Cells Val := fun i =>
  match i with
  | [n] => (as[n]?).getD .nilPtr
  | _ => .nilPtr

/-- `func(id int, page int, at time, body int)` at
`PUT /users/{id=%v}/posts?page=%v&at=%v`. -/
def putPost : Op Val where
  method := S "PUT"
  path := S "/users/{id}/posts"
  params := [⟨S "id", .one intKind, .at true false, [0]⟩, ⟨S "page", .one strKind, .at false true, [1]⟩,
    ⟨S "at", .one timeKind, .at false true, [2]⟩, ⟨[], .one intKind, .at false false, [3]⟩]

/-- The routes of a host: that one and others. -/
def postRoutes : List (Route Nat) :=
  [⟨S "PUT", [.lit (S "users"), .par (S "id"), .lit (S "posts")], 1⟩,
   ⟨S "GET", [.lit (S "users"), .par (S "id")], 2⟩,
   ⟨S "GET", [.lit (S "users"), .lit (S "me")], 3⟩]

/-- The hypotheses of `arguments_arrive_partial` are met by a call with arguments in the path,
in the query and in the body. -/
theorem putPost_travels (s : Str) (hs : ∀ c ∈ s, IsByte c) (n : Nat) :
    Travels std0 cstd0 (fun _ => toy) postRoutes ⟨S "PUT", [.lit (S "users"), .par (S "id"), .lit (S "posts")], 1⟩
      putPost (cellsOf [.one (.int 7), .one (.str s), .one (.time n), .one (.int (-5))])
      [S "users", S "7", S "posts"] where
  table := clean_of _ (by decide)
  current := ⟨[], _, rfl, by decide⟩
  method := rfl
  path := by decide
  literals := by
    intro l hl c hc
    have hall : ∀ x ∈ [Seg.lit (S "users"), .par (S "id"), .lit (S "posts")], ∀ c ∈ x.text,
      (match x with | .lit _ => segPlain c | .par _ => true) = true := by decide +kernel
    exact hall (.lit l) hl c hc
  names := by
    intro m hm
    have : m = S "id" := by simpa using hm
    subst this; decide
  once := by decide
  filled := by
    refine .cons rfl (.cons ?_ (.cons rfl .nil))
    exact ⟨_, List.mem_cons_self .., rfl, rfl, intKind, .int 7, rfl, rfl, by decide⟩
  wins := by
    intro i name v h1 h2 r hr _ h3
    match i with
    | 0 => simp at h1
    | 1 => simp at h2; subst h2; revert r; decide
    | 2 => simp at h1
    | m + 3 => simp at h1
  segments := by
    intro t ht
    have : t = S "users" ∨ t = S "7" ∨ t = S "posts" := by simpa using ht
    rcases this with rfl | rfl | rfl <;> exact ⟨⟨by decide, by decide⟩, by decide⟩
  deeper := by
    intro i name h1 j hj r' hr' _ h3
    match i with
    | 0 => simp at h1
    | 1 =>
      have hl0 : ∀ r' ∈ postRoutes, r'.segs.length ≤ 3 := by decide
      have hl := hl0 r' hr'
      match j with
      | 2 =>
        have : ∀ r' ∈ postRoutes, r'.segs[2]? ≠ some (.par (S "id")) := by decide
        simp at h1; subst h1
        exact this r' hr' h3
      | m + 3 => rw [List.getElem?_eq_none (by omega)] at h3; cases h3
    | 2 => simp at h1
    | m + 3 => simp at h1
  index := by
    show List.Pairwise _ putPost.params
    simp [putPost]
  pathNames := by decide
  queryNames := by decide
  bytes := by
    refine ⟨by simp [putPost], ?_⟩
    have : ∀ p ∈ putPost.params, ∀ c ∈ p.name, c.toNat < 256 := by
      intro p hp
      simp only [putPost, List.mem_cons, List.not_mem_nil, or_false] at hp
      rcases hp with rfl | rfl | rfl | rfl <;> dsimp only <;> decide
    exact this
  inPath := by
    intro p hp hi
    simp only [putPost, List.mem_cons, List.not_mem_nil, or_false] at hp
    rcases hp with rfl | rfl | rfl | rfl
    · exact ⟨intKind, .int 7, rfl, rfl, int_printed 7 (by decide) (by decide)⟩
    all_goals (simp [Prm.inPath] at hi)
  inQuery := by
    intro p hp hi
    simp only [putPost, List.mem_cons, List.not_mem_nil, or_false] at hp
    rcases hp with rfl | rfl | rfl | rfl
    · simp [Prm.inQuery] at hi
    · exact ⟨strKind, .str s, rfl, rfl, Or.inl (str_printed s hs)⟩
    · exact ⟨timeKind, .time n, rfl, rfl, Or.inr ⟨rfl, .inl (time_textual n)⟩⟩
    · simp [Prm.inQuery] at hi
  ctype := by decide
  body := by
    refine .one ⟨[], .one intKind, .at false false, [3]⟩ rfl rfl (by decide) (by simp) (by simp [cellsOf]) ⟨[], ?_⟩
    have : scanInt (printInt (-5)) = some (-5) := scan_print (-5) (by decide) (by decide)
    show (if intKind.isZero (Val.int 0) then (scanInt (printInt (-5))).map
      (fun i => (Arg.one (Val.int i), ([] : Str))) else none) = _
    rw [this]; rfl

example : Arrives std0 cstd0 (fun _ => toy) postRoutes 1 putPost
    (cellsOf [.one (.int 7), .one (.str (S "a b&c=d%")), .one (.time 9), .one (.int (-5))]) :=
  arguments_arrive_partial _ _ _ _ _ _ _ _
    (putPost_travels (S "a b&c=d%") (by intro c hc; revert c; unfold IsByte; decide) 9)

/-! ## What happens to a call -/

/-- What happened to the arguments of a call: the client panicked or refused to send, no
handler was found, the handler of an operation read these arguments, or it answered without
having read them, or it panicked. -/
inductive Fate where
  | clientPanic
  | unsent
  | notFound
  | read (handler : Nat) (args : List (Arg Val))
  | answered
  | hostPanic
deriving DecidableEq

/-- What happens to a call of `op` when the host is `node`. -/
def fateAt (node : Node Nat) (op : Op Val) (args : Cells Val) : Fate :=
  match send cstd0 (fun _ => toy) op args with
  | .panic => .clientPanic
  | .refused => .unsent
  | .request rq =>
    match node.serve rq.mux with
    | .notFound _ => .notFound
    | .handled h req' =>
      match readArgs std0 (fun _ => toy) op { rq with mux := req' } with
      | .ok cells => .read h (op.params.map fun p => cells p.index)
      | .panic => .hostPanic
      | _ => .answered

/-- What happens to a call of `op` at the host with these routes. -/
def fate (rs : List (Route Nat)) (op : Op Val) (args : List (Arg Val)) : Fate :=
  fateAt (routerOf rs) op (cellsOf args)

private theorem fate_eq {rs : List (Route Nat)} {op : Op Val} {args : List (Arg Val)} {f : Fate}
    (hc : cleanB rs = true) (e : fateAt (.mux (insAll rs) []) op (cellsOf args) = f) :
    fate rs op args = f := by
  unfold fate routerOf
  rw [router_eq rs (clean_of rs hc)]
  exact e

/-- Arguments that arrive are read by the handler. -/
theorem fate_of_arrives {rs : List (Route Nat)} {h : Nat} {op : Op Val} {args : List (Arg Val)}
    (ha : Arrives std0 cstd0 (fun _ => toy) rs h op (cellsOf args)) :
    ∃ as, fate rs op args = .read h as ∧
      ∀ (i : Nat) p, op.params[i]? = some p → p.loc ≠ .void → as[i]? = some (cellsOf args p.index) := by
  obtain ⟨rq, h1, req', h2, cells, h3, h4⟩ := ha
  refine ⟨op.params.map fun p => cells p.index, ?_, ?_⟩
  · unfold fate fateAt
    rw [h1]; dsimp only
    rw [h2]; dsimp only
    rw [h3]
  · intro i p hi hp
    rw [List.getElem?_map, hi, Option.map_some, h4 p (List.mem_of_getElem? hi) hp]

/-- The operation with one argument at `METHOD /item/{x}`. -/
def inPathOp (m : String) (sh : Shape Val) (name : String := "x") : Op Val where
  method := S m
  path := S "/item/{" ++ S name ++ S "}"
  params := [⟨S name, sh, .at true false, [0]⟩]

/-- The route of `inPathOp`. -/
def inPathRoutes (m : String) (name : String := "x") : List (Route Nat) :=
  [⟨S m, [.lit (S "item"), .par (S name)], 1⟩]

/-- The operation with one argument at `METHOD /list?x=%v`. -/
def inQueryOp (m : String) (sh : Shape Val) : Op Val where
  method := S m
  path := S "/list"
  params := [⟨S "x", sh, .at false true, [0]⟩]

/-- The operation with arguments in the body of `METHOD /list`. -/
def inBodyOp (m : String) (shs : List (Shape Val)) : Op Val where
  method := S m
  path := S "/list"
  params := (List.range shs.length).zipWith (fun i sh => ⟨[], sh, .at false false, [i]⟩) shs

/-- The route of `inQueryOp` and `inBodyOp`. -/
def listRoutes (m : String) : List (Route Nat) := [⟨S m, [.lit (S "list")], 1⟩]

/-- A string in a path arrives (an instance, to compare with those below). -/
example : fate (inPathRoutes "GET") (inPathOp "GET" (.one strKind)) [.one (.str (S "a b?&%"))] =
    .read 1 [.one (.str (S "a b?&%"))] := fate_eq (by decide) (by decide +kernel)

/-- The empty string in a path arrives as the name of the method. -/
theorem arguments_fails_empty_path_string :
    fate (inPathRoutes "GET") (inPathOp "GET" (.one strKind)) [.one (.str [])] =
      .read 1 [.one (.str (S "GET"))] := fate_eq (by decide) (by decide +kernel)

/-- A string with a slash in a path finds no handler. -/
theorem arguments_fails_slash :
    fate (inPathRoutes "GET") (inPathOp "GET" (.one strKind)) [.one (.str (S "a/b"))] = .notFound :=
  fate_eq (by decide) (by decide +kernel)

/-- The same for `{path*}`, whose name says that it takes the rest of the path. -/
theorem arguments_fails_rest_of_path :
    fate (inPathRoutes "GET" "path*") (inPathOp "GET" (.one strKind) "path*")
      [.one (.str (S "a/b"))] = .notFound :=
  fate_eq (by decide) (by decide +kernel)

/-- A string that is the name of a method calls another function: with `GET /item` and
`GET /item/{x}`, the call with "GET" is answered by the former. -/
theorem arguments_fails_method_name :
    fate (⟨S "GET", [.lit (S "item")], 7⟩ :: inPathRoutes "GET") (inPathOp "GET" (.one strKind))
      [.one (.str (S "GET"))] = .read 7 [.one (.str [])] := fate_eq (by decide) (by decide +kernel)

/-- A type whose printed text is not its `MarshalText` is refused in a path, although it
arrives in a query. -/
theorem arguments_fails_text_in_path :
    fate (inPathRoutes "GET") (inPathOp "GET" (.one timeKind)) [.one (.time 5)] = .answered ∧
    fate (listRoutes "GET") (inQueryOp "GET" (.one timeKind)) [.one (.time 5)] =
      .read 1 [.one (.time 5)] :=
  ⟨fate_eq (by decide) (by decide +kernel), fate_eq (by decide) (by decide +kernel)⟩

/-- A kind of string with `MarshalText` arrives marshalled, not as it was. -/
theorem arguments_fails_text_string :
    fate (listRoutes "GET") (inQueryOp "GET" (.one tagKind)) [.one (.str (S "a"))] =
      .read 1 [.one (.str (S "<a>"))] := fate_eq (by decide) (by decide +kernel)

/-- A string in JSON that looks like a number arrives as the number, if the type has numbers; other strings and numbers arrive
as they were. -/
theorem arguments_fails_json_number :
    fate (listRoutes "GET") (inQueryOp "GET" (.one jsonKind)) [.one (.str (S "5"))] =
      .read 1 [.one (.int 5)] ∧
    fate (listRoutes "GET") (inQueryOp "GET" (.one jsonKind)) [.one (.str (S "a b"))] =
      .read 1 [.one (.str (S "a b"))] ∧
    fate (listRoutes "GET") (inQueryOp "GET" (.one jsonKind)) [.one (.int 5)] =
      .read 1 [.one (.int 5)] :=
  ⟨fate_eq (by decide) (by decide +kernel), fate_eq (by decide) (by decide +kernel), fate_eq (by decide) (by decide +kernel)⟩

/-- A pointer in a query makes the handler panic. -/
theorem arguments_fails_pointer_query :
    fate (listRoutes "GET") (inQueryOp "GET" (.ptr intKind)) [.one (.int 5)] = .hostPanic :=
  fate_eq (by decide) (by decide +kernel)

/-- A pointer in a body is refused. -/
theorem arguments_fails_pointer_body :
    fate (listRoutes "POST") (inBodyOp "POST" [.ptr intKind]) [.one (.int 5)] = .answered :=
  fate_eq (by decide) (by decide +kernel)

/-- An argument that is not in the path or the query of a GET or DELETE is dropped by the
client, and the host refuses the call. -/
theorem arguments_fails_bodiless :
    fate (listRoutes "DELETE") (inBodyOp "DELETE" [.one intKind]) [.one (.int 5)] = .answered ∧
    fate (listRoutes "GET") (inBodyOp "GET" [.one intKind]) [.one (.int 5)] = .answered ∧
    fate (listRoutes "POST") (inBodyOp "POST" [.one intKind]) [.one (.int 5)] =
      .read 1 [.one (.int 5)] :=
  ⟨fate_eq (by decide) (by decide +kernel), fate_eq (by decide) (by decide +kernel),
    fate_eq (by decide) (by decide +kernel)⟩

/-- Two arguments in the body without names for them: the client sends an object, the host
expects one value after the other. -/
theorem arguments_fails_two_in_body :
    fate (listRoutes "POST") (inBodyOp "POST" [.one intKind, .one intKind])
      [.one (.int 5), .one (.int 6)] = .answered :=
  fate_eq (by decide) (by decide +kernel)

/-- No slice that is not empty arrives in a query: whatever its type and elements, what the
handler reads is empty, because the client writes `x=…` and the host reads `x[]=…`. -/
theorem arguments_fails_slices {V : Type} (std : Std) (k : Kind V) (rq : Request) (name : Str)
    (i : List Nat) (uq : Str → Str) (vs : List V)
    (hq : ∀ n, valuesOf rq.query n = valuesOf (encodeQuery uq name (.slice k) (.many vs)) n) :
    readPlain std ⟨name, .slice k, .at false true, i⟩ rq = .ok (.many []) := by
  have hne : ∀ v, ∀ p ∈ encodeOne uq name k v, p.1 = name := by
    intro v p hp
    unfold encodeOne at hp
    split at hp
    · simp at hp
    · split at hp
      · simp at hp; rw [hp]
      · split at hp <;> (simp at hp; rw [hp])
  have h0 : valuesOf rq.query (name ++ "[]".toList) = [] := by
    rw [hq]
    unfold valuesOf encodeQuery
    rw [List.map_eq_nil_iff, List.filter_eq_nil_iff]
    intro p hp
    obtain ⟨l, hl, hp⟩ := List.mem_flatten.mp hp
    obtain ⟨v, _, rfl⟩ := List.mem_map.mp hl
    rw [hne v p hp]
    have : name ≠ name ++ "[]".toList := by
      intro e
      have := congrArg List.length e
      simp at this
    simpa using this
  unfold readPlain
  dsimp only
  rw [h0]
  rfl

/-- An instance from end to end. -/
theorem arguments_fails_slice :
    fate (listRoutes "GET") (inQueryOp "GET" (.slice intKind)) [.many [.int 1, .int 2]] =
      .read 1 [.many []] := fate_eq (by decide) (by decide +kernel)

/-- The full property for strings in a path: every string arrives. -/
def PathStringsClaim : Prop :=
  ∀ s : Str, Arrives std0 cstd0 (fun _ => toy) (inPathRoutes "GET") 1 (inPathOp "GET" (.one strKind))
    (cellsOf [.one (.str s)])

/-- The full property for slices in a query. -/
def QuerySlicesClaim : Prop :=
  ∀ is : List Int, Arrives std0 cstd0 (fun _ => toy) (listRoutes "GET") 1
    (inQueryOp "GET" (.slice intKind)) (cellsOf [.many (is.map .int)])

/-- The full property of strings in a path is false. -/
theorem arguments_fails_path_strings : ¬ PathStringsClaim := by
  intro h
  obtain ⟨as, h1, _⟩ := fate_of_arrives (h (S "a/b"))
  rw [arguments_fails_slash] at h1
  cases h1

/-- The full property of slices in a query is false. -/
theorem arguments_fails_query_slices : ¬ QuerySlicesClaim := by
  intro h
  obtain ⟨as, h1, h2⟩ := fate_of_arrives (h [1, 2])
  have e : fate (listRoutes "GET") (inQueryOp "GET" (.slice intKind)) [.many ([1, 2].map .int)] =
      .read 1 [.many []] := arguments_fails_slice
  rw [e] at h1
  injection h1 with _ h1
  subst h1
  have := h2 0 _ rfl (by simp)
  simp [cellsOf] at this

end Verif.Rest.Serve
