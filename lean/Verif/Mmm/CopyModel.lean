import Verif.Mmm.Model
/-!
# Copy: model

`Copy` (`mmm/mmm.go:219-244`) and the branch for counted references in `(*freeable).free` (`mmm/mmm.go:84-107`), on the model
of the rest of the package. `Copy` leaves the pointer to the API in the block (`:233`), where the counter was meant to
go, and then counts in whatever is there (`:237-238`): the first word of the API, which belongs to the user.
-/
namespace Verif.Mmm

/-- `isRefCounted`, mmm/mmm.go:21-23 (bit 62). -/
def isRefCounted (rev : Nat) : Bool := rev / 2 ^ 62 % 2 = 1

/-- `setRefCounted`, mmm/mmm.go:25-27. -/
def setRefCounted (rev : Nat) : Nat := if isRefCounted rev then rev else rev + 2 ^ 62

/-- The package's state, the API every block points to, and the first two words of every API (`mmm.go:79-82`, what the code
takes for an `rc`). -/
structure CSt where
  s : St
  apiOf : Nat → Nat
  word : Nat → Int
  second : Nat → Nat

/-- Nothing allocated; the APIs are as the user made them (mmm/mmm.go:75-76). -/
def cinit (word : Nat → Int) (second : Nat → Nat) : CSt := ⟨init, fun _ => 0, word, second⟩

/-- Assignment to one place (`mmm.go:232-239`, `:91-94`). -/
def put {α : Type} (f : Nat → α) (i : Nat) (x : α) : Nat → α := fun j => if j = i then x else f j

/-- `Copy`, mmm/mmm.go:222-241. The flag is set before the handle is looked at (`:225-236`). -/
def copy (c : CSt) (h l : Hdl) (choice : Nat) : CSt × List Ev :=
  if isPinned (c.s.heap h.ref).rev then (c, [.crash])
  else
    let s := c.s.upd h.ref fun x => { x with rev := setRefCounted x.rev }
    if !matchesRev (s.heap h.ref).rev h.rev then ({ c with s := s }, [.crash])
    else
      let a := c.apiOf h.ref
      let (t, k) := newRaw s l choice (s.heap h.ref).api (s.heap h.ref).val
      ({ c with
         s := { t with ptrs := t.ptrs ++ [k] }
         apiOf := put c.apiOf k.ref a
         word := put c.word a (c.word a + 1) }, [.ptr k])

/-- `(*freeable).free`, mmm/mmm.go:84-107. -/
def cfreeObj (c : CSt) (b : Nat) : CSt × List Ev × Bool :=
  let a := c.apiOf b
  if isRefCounted (c.s.heap b).rev then
    let w := c.word a - 1
    let c := { c with word := put c.word a w, second := if w = 0 then put c.second a 0 else c.second }
    if 0 < w then ({ c with s := (c.s.unlink b).upd b fun x => { x with fin := false } }, [], false)
    else
      let r := freeObj c.s b
      ({ c with s := r.1 }, r.2.1, r.2.2)
  else
    let r := freeObj c.s b
    ({ c with s := r.1 }, r.2.1, r.2.2)

/-- The loop of `Lifetime.End`, mmm/mmm.go:134-140. -/
def cendLoop (c : CSt) (root : Nat) : Nat → CSt × List Ev × Bool
  | 0 => (c, [.crash], true)
  | fuel + 1 =>
    let next := (c.s.heap root).nxt
    if (c.s.heap next).api then
      let (c, ev, bad) := cfreeObj c next
      if bad then (c, ev, true)
      else
        let (c, ev', bad) := cendLoop c root fuel
        (c, ev ++ ev', bad)
    else (c, [], false)

/-- `Lifetime.End`, mmm/mmm.go:125-145. -/
def cendLife (c : CSt) (l : Hdl) : CSt × List Ev :=
  if (c.s.heap l.ref).rev ≠ l.rev then (c, [])
  else if (c.s.heap l.ref).api then
    let (c, ev, _) := cfreeObj c l.ref
    (c, ev)
  else
    let (c, ev, bad) := cendLoop c l.ref (c.s.size + 1)
    if bad then (c, ev)
    else
      let s := c.s.upd l.ref fun x => { x with rev := (x.rev + 1) % 2 ^ 64 }
      let s := if (s.heap l.ref).rev < maxRevision then { s with roots := s.roots ++ [l.ref] } else s
      ({ c with s := s }, ev)

/-- The client's moves: those of the rest of the package, allocations saying which API they have, and copies
(mmm/mmm.go:60-384). -/
inductive COp where
  | base (op : Op) (api : Nat)
  | copy (p l choice : Nat)
  deriving DecidableEq, Repr

/-- One move. `Move` of a counted pointer panics (`mmm.go:199-201`); the block of a new pointer has the given API, that of a
moved one the API it had. -/
def cstep (c : CSt) : COp → CSt × List Ev
  | .base (.endLife l) _ => match c.s.lifes[l]? with
    | some h => cendLife c h
    | none => (c, [])
  | .base (.new l ch ap v pin) api =>
    let r := step c.s (.new l ch ap v pin)
    ({ c with s := r.1, apiOf := match r.2 with | [.ptr k] => put c.apiOf k.ref api | _ => c.apiOf }, r.2)
  | .base (.move p l ch) _ => match c.s.ptrs[p]? with
    | some h =>
      if isRefCounted (c.s.heap h.ref).rev then (c, [.crash])
      else
        let r := step c.s (.move p l ch)
        ({ c with s := r.1, apiOf := match r.2 with | [_, .ptr k] => put c.apiOf k.ref (c.apiOf h.ref) | _ => c.apiOf }, r.2)
    | none => (c, [])
  | .base op _ => let r := step c.s op; ({ c with s := r.1 }, r.2)
  | .copy p l ch => match c.s.ptrs[p]?, c.s.lifes[l]? with
    | some h, some k => copy c h k ch
    | _, _ => (c, [])

/-- A history (mmm/mmm.go:60-384). -/
def crun (c : CSt) : List COp → CSt × List Ev
  | [] => (c, [])
  | op :: t =>
    let r := cstep c op
    let r' := crun r.1 t
    (r'.1, r.2 ++ r'.2)

end Verif.Mmm
