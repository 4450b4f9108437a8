import Verif.Ffi.RefModel

/-!
# What Go says about the programs that an FFI client can write with handles

The same statements, over Go variables instead of handles: the n-th variable of the environment is what the n-th statement that
makes something made. A slice is the list of the variables it could reach, of which the first `len` are its elements.
Statements that Go's compiler refuses are `refused`.
-/
namespace Verif.Ffi.Go

/-- A value of the environment. -/
inductive Val where
  /-- a pointer to a variable -/
  | pointer (v : Nat)
  | slice (kind : Kind) (reach : List Nat) (len : Nat)
  | chan (c : Nat)
  | map (m : Nat)

/-- The statements. Values are named by their numbers, from 1. -/
inductive Stmt where
  | new (k : Kind)
  | make (k : Kind) (l c : Nat)
  | slice (s i j : Nat)
  | copy (d s : Nat)
  | elem (s i : Nat)
  | length (x : Nat)
  | capacity (x : Nat)
  | isNil (x : Nat)
  /-- `*p = v`, or `c <- v` -/
  | put (x : Nat) (v : Scalar)
  /-- `*p`, or `<-c` -/
  | take (x : Nat) (k : Kind)
  | makeChan (k : Kind) (n : Nat)
  | close (c : Nat)
  | makeMap (k : Kind)
  /-- a new variable of the map's key type -/
  | key (m : Nat)
  | clear (m : Nat)
  | delete (m : Nat) (key : Nat)

structure Chan where
  kind : Kind
  cap : Nat
  queue : List Scalar
  closed : Bool

structure Map where
  kind : Kind
  keys : List Scalar

structure State where
  vars : List Scalar
  env : List Val
  chans : List Chan
  maps : List Map

inductive Out where
  | nothing
  | made
  | num (n : Nat)
  | flag (b : Bool)
  | value (v : Scalar)

/-- The end of a statement. -/
inductive Res where
  | ok (s : State) (o : Out)
  | panics
  | blocks
  | refused

def State.val (s : State) (x : Nat) : Option Val := if x = 0 then none else s.env[x - 1]?

def State.add (s : State) (v : Val) : Res := .ok { s with env := s.env ++ [v] } .made

/-- Assign values to variables, all of them evaluated before. -/
def assign (vars : List Scalar) : List Nat → List Scalar → List Scalar
  | a :: as, v :: vs => assign (vars.set a v) as vs
  | _, _ => vars

def step (zero : Kind → Scalar) (s : State) : Stmt → Res
  | .new k => State.add { s with vars := s.vars ++ [zero k] } (.pointer s.vars.length)
  | .make k l c =>
    if l > c then .panics
    else State.add { s with vars := s.vars ++ List.replicate c (zero k) } (.slice k (List.range' s.vars.length c) l)
  | .slice x i j =>
    match s.val x with
    | some (.slice k reach _) => if i ≤ j ∧ j ≤ reach.length then s.add (.slice k (reach.drop i) (j - i)) else .panics
    | _ => .refused
  | .copy d x =>
    match s.val d, s.val x with
    | some (.slice k r l), some (.slice k' r' l') =>
      if k = k' then
        .ok { s with vars := assign s.vars (r.take l) ((r'.take l').filterMap fun a => s.vars[a]?) } .nothing
      else .refused
    | _, _ => .refused
  | .elem x i =>
    match s.val x with
    | some (.slice _ r l) =>
      match (r.take l)[i]? with
      | some a => s.add (.pointer a)
      | none => .panics
    | _ => .refused
  | .length x =>
    match s.val x with
    | some (.slice _ _ l) => .ok s (.num l)
    | some (.chan c) =>
      match s.chans[c]? with
      | some ch => .ok s (.num ch.queue.length)
      | none => .refused
    | some (.map m) =>
      match s.maps[m]? with
      | some mp => .ok s (.num mp.keys.length)
      | none => .refused
    | _ => .refused
  | .capacity x =>
    match s.val x with
    | some (.slice _ r _) => .ok s (.num r.length)
    | some (.chan c) =>
      match s.chans[c]? with
      | some ch => .ok s (.num ch.cap)
      | none => .refused
    | _ => .refused
  | .isNil x =>
    match s.val x with
    | some _ => .ok s (.flag false)
    | none => .refused
  | .put x v =>
    match s.val x with
    | some (.pointer a) =>
      match s.vars[a]? with
      | some old => if old.kind = v.kind then .ok { s with vars := s.vars.set a v } .nothing else .refused
      | none => .refused
    | some (.chan c) =>
      match s.chans[c]? with
      | some ch =>
        if ch.kind ≠ v.kind then .refused
        else if ch.closed then .panics
        else if ch.queue.length < ch.cap then .ok { s with chans := s.chans.set c { ch with queue := ch.queue ++ [v] } } .nothing
        else .blocks
      | none => .refused
    | _ => .refused
  | .take x k =>
    match s.val x with
    | some (.pointer a) =>
      match s.vars[a]? with
      | some v => if v.kind = k then .ok s (.value v) else .refused
      | none => .refused
    | some (.chan c) =>
      match s.chans[c]? with
      | some ch =>
        if ch.kind ≠ k then .refused
        else
          match ch.queue with
          | v :: q => .ok { s with chans := s.chans.set c { ch with queue := q } } (.value v)
          | [] => if ch.closed then .ok s (.value (zero k)) else .blocks
      | none => .refused
    | _ => .refused
  | .makeChan k n => State.add { s with chans := s.chans ++ [⟨k, n, [], false⟩] } (.chan s.chans.length)
  | .close x =>
    match s.val x with
    | some (.chan c) =>
      match s.chans[c]? with
      | some ch => if ch.closed then .panics else .ok { s with chans := s.chans.set c { ch with closed := true } } .nothing
      | none => .refused
    | _ => .refused
  | .makeMap k => State.add { s with maps := s.maps ++ [⟨k, []⟩] } (.map s.maps.length)
  | .key x =>
    match s.val x with
    | some (.map m) =>
      match s.maps[m]? with
      | some mp => State.add { s with vars := s.vars ++ [zero mp.kind] } (.pointer s.vars.length)
      | none => .refused
    | _ => .refused
  | .clear x =>
    match s.val x with
    | some (.map m) =>
      match s.maps[m]? with
      | some mp => .ok { s with maps := s.maps.set m { mp with keys := [] } } .nothing
      | none => .refused
    | _ => .refused
  | .delete x key =>
    match s.val x, s.val key with
    | some (.map m), some (.pointer a) =>
      match s.maps[m]?, s.vars[a]? with
      | some mp, some v =>
        if mp.kind = v.kind then .ok { s with maps := s.maps.set m { mp with keys := mp.keys.filter (· ≠ v) } } .nothing
        else .refused
      | _, _ => .refused
    | _, _ => .refused

/-- How a program ends. -/
inductive End where
  | done
  | panicked
  | blocked
  | refused
deriving DecidableEq

/-- A program: what each statement gives, until the first that does not return. -/
def run (zero : Kind → Scalar) : State → List Stmt → List Out × End
  | _, [] => ([], .done)
  | s, st :: p =>
    match step zero s st with
    | .ok s' o => let r := run zero s' p; (o :: r.1, r.2)
    | .panics => ([], .panicked)
    | .blocks => ([], .blocked)
    | .refused => ([], .refused)

def start : State := ⟨[], [], [], []⟩

/-- The statements of which more is said below: sends, receives, and comparisons of pointers with nil. -/
def Avoided (s : State) : Stmt → Prop
  | .put x _ | .take x _ => ∃ c, s.val x = some (.chan c)
  | .isNil x => ∃ a, s.val x = some (.pointer a)
  | _ => False

/-- A program none of whose statements is one of these when it is reached. -/
def Plain (zero : Kind → Scalar) : State → List Stmt → Prop
  | _, [] => True
  | s, st :: p => ¬ Avoided s st ∧ ∀ s' o, step zero s st = .ok s' o → Plain zero s' p

/-- Lengths are numbers of 32 bits. -/
def Fits : Stmt → Prop
  | .make _ _ c => c < 2 ^ 32
  | _ => True

/-- How a program ends for a client: what Go's compiler would have refused is a panic. -/
def End.seen : End → End
  | .refused => .panicked
  | e => e

end Verif.Ffi.Go
