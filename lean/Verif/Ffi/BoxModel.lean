import Verif.Ffi.BoxSpec

/-!
# Model of slices, pointers, channels and maps by handle (ffi/src.go:85-155, ffi/enc.go, ffi/dec.go)

A handle stands for a `reflect.Value`. That handles are found again is C93; here they are the positions of a table. Element
types are scalar kinds and strings, one goroutine.
-/
namespace Verif.Ffi.Box

open Verif.Ffi.Go (Stmt Out)

/-- What a handle stands for (src.go:16-24): an addressable variable, a slice of consecutive variables, a channel, a map. -/
inductive RVal where
  | var (addr : Nat)
  | slice (kind : Kind) (base len cap : Nat)
  | chan (c : Nat)
  | map (m : Nat)

/-- A channel of Go's runtime (src.go:112). -/
structure Chan where
  kind : Kind
  cap : Nat
  queue : List Scalar
  closed : Bool

/-- A map of Go's runtime (src.go:142). -/
structure Map where
  kind : Kind
  keys : List Scalar

/-- The table of handles, and memory (src.go:13-24). -/
structure State where
  mem : Nat → Scalar
  next : Nat
  tab : List RVal
  chans : List Chan
  maps : List Map

/-- The end of a call (src.go:56-62, enc.go:69-90, dec.go:88-120). -/
inductive Res where
  | ok (s : State) (o : Out)
  | panics
  | blocks

/-- `handle.Get`; `none` is its panic (src.go:56-62). -/
def State.get (s : State) (h : Nat) : Option RVal := if h = 0 then none else s.tab[h - 1]?

/-- `handle.New` (src.go:50-54). -/
def State.handle (s : State) (v : RVal) : Res := .ok { s with tab := s.tab ++ [v] } .made

/-- New variables (src.go:87, 104, 151). -/
def alloc (mem : Nat → Scalar) (base n : Nat) (v : Scalar) : Nat → Scalar :=
  fun a => if base ≤ a ∧ a < base + n then v else mem a

/-- `reflect.Copy`, which reads all before it writes (src.go:96). -/
def move (mem : Nat → Scalar) (dst src n : Nat) : Nat → Scalar :=
  fun a => if dst ≤ a ∧ a < dst + n then mem (src + (a - dst)) else mem a

/-- The functions of the API, by the statement of the client they stand for (src.go:85-155); `put` is the function of
`Encode` for the kind of the value, `take` that of `Decode`. -/
def call (zero : Kind → Scalar) (s : State) : Stmt → Res
  | .new k => State.handle { s with mem := alloc s.mem s.next 1 (zero k), next := s.next + 1 } (.var s.next)  -- src.go:103-105
  | .make k l c =>  -- src.go:86-88
    if l > c then .panics
    else State.handle { s with mem := alloc s.mem s.next c (zero k), next := s.next + c } (.slice k s.next l c)
  | .slice x i j =>  -- src.go:92-94
    match s.get x with
    | some (.slice k b _ c) => if i > j ∨ j > c then .panics else s.handle (.slice k (b + i) (j - i) (c - i))
    | _ => .panics
  | .copy d x =>  -- src.go:96
    match s.get d, s.get x with
    | some (.slice k b l _), some (.slice k' b' l' _) =>
      if k = k' then .ok { s with mem := move s.mem b b' (min l l') } .nothing else .panics
    | _, _ => .panics
  | .elem x i =>  -- src.go:97-99
    match s.get x with
    | some (.slice _ b l _) => if i < l then s.handle (.var (b + i)) else .panics
    | _ => .panics
  | .length x =>  -- src.go:91, 115, 144-146
    match s.get x with
    | some (.slice _ _ l _) => .ok s (.num (l % 2 ^ 32))
    | some (.chan c) =>
      match s.chans[c]? with
      | some ch => .ok s (.num ch.queue.length)
      | none => .panics
    | some (.map m) =>
      match s.maps[m]? with
      | some mp => .ok s (.num mp.keys.length)
      | none => .panics
    | _ => .panics
  | .capacity x =>  -- src.go:90, 116
    match s.get x with
    | some (.slice _ _ _ c) => .ok s (.num (c % 2 ^ 32))
    | some (.chan c) =>
      match s.chans[c]? with
      | some ch => .ok s (.num ch.cap)
      | none => .panics
    | _ => .panics
  | .isNil x =>  -- src.go:89, 107, 114, 143: `IsNil` of the variable itself, which panics for scalar kinds
    match s.get x with
    | some (.var _) => .panics
    | some _ => .ok s (.flag false)
    | none => .panics
  | .put x v =>  -- src.go:166-365 and enc.go:69-90: what is sent is converted from a `reflect.Value` of a `reflect.Value`
    match s.get x with
    | some (.var a) =>
      if (s.mem a).kind = v.kind then .ok { s with mem := fun a' => if a' = a then v else s.mem a' } .nothing else .panics
    | some (.chan _) => .panics
    | _ => .panics
  | .take x k =>  -- src.go:366-575 and dec.go:88-120: a channel that is closed panics
    match s.get x with
    | some (.var a) => if (s.mem a).kind = k then .ok s (.value (s.mem a)) else .panics
    | some (.chan c) =>
      match s.chans[c]? with
      | some ch =>
        match ch.queue with
        | v :: q =>
          if v.kind = k then .ok { s with chans := s.chans.set c { ch with queue := q } } (.value v) else .panics
        | [] => if ch.closed then .panics else .blocks
      | none => .panics
    | _ => .panics
  | .makeChan k n => State.handle { s with chans := s.chans ++ [⟨k, n, [], false⟩] } (.chan s.chans.length)  -- src.go:111-113
  | .close x =>  -- src.go:118
    match s.get x with
    | some (.chan c) =>
      match s.chans[c]? with
      | some ch => if ch.closed then .panics else .ok { s with chans := s.chans.set c { ch with closed := true } } .nothing
      | none => .panics
    | _ => .panics
  | .makeMap k => State.handle { s with maps := s.maps ++ [⟨k, []⟩] } (.map s.maps.length)  -- src.go:142
  | .key x =>  -- src.go:149-152
    match s.get x with
    | some (.map m) =>
      match s.maps[m]? with
      | some mp => State.handle { s with mem := alloc s.mem s.next 1 (zero mp.kind), next := s.next + 1 } (.var s.next)
      | none => .panics
    | _ => .panics
  | .clear x =>  -- src.go:148
    match s.get x with
    | some (.map m) =>
      match s.maps[m]? with
      | some mp => .ok { s with maps := s.maps.set m { mp with keys := [] } } .nothing
      | none => .panics
    | _ => .panics
  | .delete x key =>  -- src.go:153
    match s.get x, s.get key with
    | some (.map m), some (.var a) =>
      match s.maps[m]? with
      | some mp =>
        if mp.kind = (s.mem a).kind then
          .ok { s with maps := s.maps.set m { mp with keys := mp.keys.filter (· ≠ s.mem a) } } .nothing
        else .panics
      | none => .panics
    | _, _ => .panics

/-- The client's program (src.go:66-155): what the calls return, and how it ends. -/
def run (zero : Kind → Scalar) : State → List Stmt → List Out × Go.End
  | _, [] => ([], .done)
  | s, st :: p =>
    match call zero s st with
    | .ok s' o => let r := run zero s' p; (o :: r.1, r.2)
    | .panics => ([], .panicked)
    | .blocks => ([], .blocked)

/-- No handles yet (src.go:13). -/
def start (zero : Kind → Scalar) : State := ⟨fun _ => zero .int, 0, [], [], []⟩

end Verif.Ffi.Box
