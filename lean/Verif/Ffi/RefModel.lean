/-!
# Model of the handles of `ffi/src.go`, and of passing values through them (`ffi/enc.go`, `ffi/dec.go`)
-/
namespace Verif.Ffi

/-- The keys of the `sync.Map` of a `handle`, as `any` values: `New` and `Get` use a `uint64`, `End` a
`uintptr`, which is never equal to it (`ffi/src.go:45-62`). -/
inductive Key where
  | uint64 (id : Nat)
  | uintptr (id : Nat)
  deriving DecidableEq

/-- A `handle` (ffi/src.go:45-48) and the calls of `New` that have taken an id but not stored the value
yet, by goroutine. `handed` are the handles that calls of `New` have returned, and the values they were
called with. The counter is a natural number (simplification: fewer than 2^64 handles are made). -/
structure Refs (V : Type) where
  n : Nat
  m : Key → Option V
  pending : Nat → Option (Nat × V)
  handed : List (Nat × V)

/-- A map with one entry changed (`ffi/src.go:52`). -/
def upd {V : Type} (m : Key → Option V) (k : Key) (v : Option V) : Key → Option V :=
  fun k' => if k' = k then v else m k'

/-- The goroutine `g` changed (`ffi/src.go:50-54`). -/
def updG {A : Type} (p : Nat → A) (g : Nat) (a : A) : Nat → A :=
  fun g' => if g' = g then a else p g'

/-- The atomic steps of any number of goroutines (`ffi/src.go:45-62`). -/
inductive RStep {V : Type} : Refs V → Refs V → Prop
  /-- ffi/src.go:51: `p := h.n.Add(1)` -/
  | take (s : Refs V) (g : Nat) (v : V) (h : s.pending g = none) :
    RStep s { s with n := s.n + 1, pending := updG s.pending g (some (s.n + 1, v)) }
  /-- ffi/src.go:52-53: `h.m.Store(p, v)`, and the return of `New` -/
  | store (s : Refs V) (g : Nat) (p : Nat) (v : V) (h : s.pending g = some (p, v)) :
    RStep s { s with m := upd s.m (.uint64 p) (some v), pending := updG s.pending g none,
                     handed := (p, v) :: s.handed }
  /-- ffi/src.go:64: `End`, which deletes the key `uintptr(id)` -/
  | free (s : Refs V) (id : Nat) :
    RStep s { s with m := upd s.m (.uintptr id) none }

/-- The states that can be reached (`ffi/src.go:45-62`). -/
inductive RReach {V : Type} : Refs V → Prop
  | init : RReach ⟨0, fun _ => none, fun _ => none, []⟩
  | step {s t : Refs V} : RReach s → RStep s t → RReach t

/-- ffi/src.go:56-62, `Get`; `none` is the panic of an invalid id. -/
def Refs.get {V : Type} (s : Refs V) (id : Nat) : Option V := s.m (.uint64 id)

/-! ## Structures -/

/-- The scalar kinds of the encoders and decoders, and strings (`ffi/src.go:166-349`). -/
inductive Kind where
  | bool | int | int8 | int16 | int32 | int64 | uint | uint8 | uint16 | uint32 | uint64 | uintptr
  | float32 | float64 | complex64 | complex128 | string
  deriving DecidableEq

/-- A Go value of a scalar kind or a string; the content is abstract (`ffi/src.go:166-349`). -/
structure Scalar where
  kind : Kind
  content : List UInt8
  deriving DecidableEq

/-- What a handle of a structure stands for (`ffi/src.go:166-349`). -/
inductive Cell where
  /-- a variable of a scalar kind or of kind string -/
  | var (v : Scalar)
  /-- a variable of an interface type that holds a value -/
  | iface (v : Scalar)
  /-- a variable of an interface type that holds a `reflect.Value` of the value -/
  | wrapped (v : Scalar)
  /-- the results of a function, `*statefulDecoder` over a `[]reflect.Value` -/
  | results (vs : List Scalar) (state : Nat)
  /-- the bytes of a string, `*statefulDecoder` over a string -/
  | bytes (s : List UInt8) (state : Nat)
  /-- the arguments of a function, a `[]reflect.Value` of length 0 -/
  | args
  deriving DecidableEq

/-- The functions of `Encoding` for scalar kinds, ffi/src.go:166-293, and `String`, :342-349 (with the
text of the string): the cell afterwards, `none` is a panic. For an interface, ffi/enc.go:73-74 sets a
`reflect.Value` of the `reflect.Value`. -/
def Cell.encode (c : Cell) (v : Scalar) : Option Cell :=
  match c with
  | .var old => if old.kind = v.kind then some (.var v) else none
  | .iface _ => some (.wrapped v)
  | .wrapped _ => some (.wrapped v)
  | .results _ _ => none
  | .bytes _ _ => none
  | .args => none

/-- The functions of `Decoding` for scalar kinds, ffi/src.go:368-495, with ffi/dec.go:88-120: the cell
afterwards and the value, `none` is a panic. The results of a function are `reflect.Value`s, which are
not of type `T`: the test of ffi/dec.go:107 looks at the type of the structure. -/
def Cell.decode (c : Cell) (k : Kind) : Option (Cell × Scalar) :=
  match c with
  | .var v => if v.kind = k then some (c, v) else none
  | .iface v => if v.kind = k then some (c, v) else none
  | .wrapped _ => none
  | .results _ _ => none
  | .bytes s state =>
    match s[state]? with
    | none => none
    | some b => if k = .uint8 then some (.bytes s (state + 1), ⟨.uint8, [b]⟩) else none
  | .args => none

/-- `Decoding.String`, ffi/src.go:536-543, with ffi/dec.go:122-155: the value the new handle stands
for. -/
def Cell.decodeString (c : Cell) : Option (Cell × Scalar) :=
  match c with
  | .var v => if v.kind = .string then some (c, v) else none
  | .iface _ => none
  | .wrapped _ => none
  | .results vs state =>
    match vs[state]? with
    | none => none
    | some v => some (.results vs (state + 1), v)
  | .bytes _ _ => none
  | .args => none

/-- `Strings.Len`, ffi/src.go:75-77. Only strings have a length here. -/
def stringLen (v : Scalar) : Option Nat :=
  if v.kind = .string then some (v.content.length % 2 ^ 32) else none

/-- The loop of ffi/dec.go:77-79: `n` bytes are decoded one after the other. -/
def readBytes : Nat → Cell → Option (List UInt8)
  | 0, _ => some []
  | n + 1, c =>
    match c.decode .uint8 with
    | none => none
    | some (c, v) => match readBytes n c with
      | none => none
      | some bs => some (v.content ++ bs)

/-- `API.Decode` into a variable of this kind, ffi/dec.go:14-86 (scalar kinds and strings). `Data` of a
string makes a decoder of its bytes, ffi/src.go:78-82. -/
def Cell.decodeInto (c : Cell) (k : Kind) : Option (Cell × Scalar) :=
  if k = .string then
    match c.decodeString with
    | none => none
    | some (c, str) =>
      match stringLen str with
      | none => none
      | some n => match readBytes n (.bytes str.content 0) with
        | none => none
        | some bs => some (c, ⟨.string, bs⟩)
  else c.decode k

/-- A Go function behind a handle: the number of its parameters, and its results (`ffi/src.go:124-139`). -/
structure Func where
  ins : Nat
  outs : List Scalar

/-- A call by way of the handle of a function, api/wasm/import_wasm.go:78-103: `Function.Args`
(ffi/src.go:124-127), encoding of every argument, `Function.Call` (ffi/src.go:128-139), decoding of the
result into a variable of the kind of the result. `none` is a panic. -/
def Func.call (f : Func) (args : List Scalar) : Option (List Scalar) :=
  if f.ins = 0 ∧ f.outs = [] then some []
  else
    match args with
    | a :: _ => (Cell.args.encode a).map fun _ => []  -- panics at the first argument
    | [] =>
      if f.ins ≠ 0 then none -- reflect: Call with too few input arguments
      else match f.outs with
        | [] => some []
        | [out] => ((Cell.results f.outs 0).decodeInto out.kind).map fun r => [r.2]
        | _ => none -- multiple return values not supported

end Verif.Ffi
