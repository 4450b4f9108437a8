/-
Model of mmm/mmm.go (manual memory management with use-after-free detection).

Simplifications, all stated here once:
* One pointer size, hence one pool for pointer blocks (`pools[i]` in the source) and one for roots.
  `sync.Pool.Get` may return any pooled object or nothing: the operation carries that choice.
* The client holds numbered variables: its k-th pointer, its l-th lifetime. It cannot forge handles.
* A handle inside an event has its flag bits cleared (`rev % 2 ^ 62`), as `matches` ignores them.
* The user supplied `T.Free` calls `End` on its handle, as the package requires, and releases the value it
  gets back; that release is the event `freed`.
* `Copy` (reference counting) is left to CopyModel; without it bit 62 of a revision is never set and the branches
  for it are absent here. Goroutines are not modelled: the package documents itself as not safe for them.
* `Move` discards the new handle in Go; the model hands it to the client, which only adds histories.
-/
namespace Verif.Mmm

/-- `maxRevision`, mmm/mmm.go:11. -/
def maxRevision : Nat := 4611686018427387904 - 1

/-- `isPinned`, mmm/mmm.go:13-15 (bit 63). -/
def isPinned (rev : Nat) : Bool := rev / 2 ^ 63 % 2 = 1

/-- `pin`, mmm/mmm.go:17-19. -/
def pinRev (rev : Nat) : Nat := if isPinned rev then rev else rev + 2 ^ 63

/-- `matches`, mmm/mmm.go:29-31: equal once bits 62 and 63 are cleared. -/
def matchesRev (a b : Nat) : Bool := a % 2 ^ 62 = b % 2 ^ 62

/-- `freeableWith`, mmm/mmm.go:109-112 and `freeable` in mmm_fast.go: revision, whether `api` is
non-nil, the two links, whether `end` is non-nil, the stored pointer value (0 is the zero value). -/
structure Blk where
  rev : Nat
  api : Bool
  prv : Nat
  nxt : Nat
  fin : Bool
  val : Nat
  deriving Inhabited, DecidableEq, Repr

/-- A `Pointer` or a `Lifetime` value: reference and revision (mmm/mmm.go:33-36, 53-56). -/
structure Hdl where
  ref : Nat
  rev : Nat
  deriving DecidableEq, Repr

/-- The heap, the pools (mmm/mmm.go:75-76) and the client's variables. -/
structure St where
  heap : Nat → Blk
  size : Nat
  pool : List Nat
  roots : List Nat
  ptrs : List Hdl
  lifes : List Hdl

/-- What an operation lets the outside see: a lifetime or pointer handed out, a value read, an allocation
released by its `Free`, an allocation taken out of its handle by `Move`, a panic (`mmm/mmm.go:60-375`). -/
inductive Ev where
  | life (h : Hdl)
  | ptr (h : Hdl)
  | got (v : Nat)
  | freed (h : Hdl) (v : Nat)
  | moved (h : Hdl)
  | crash
  deriving DecidableEq, Repr

/-- Nothing allocated yet (mmm/mmm.go:75-76). -/
def init : St := ⟨fun _ => ⟨0, false, 0, 0, false, 0⟩, 0, [], [], [], []⟩

/-- Assignment to a field of one heap object (mmm/mmm.go:86-87, 272-280, 361-365). -/
def St.upd (s : St) (b : Nat) (f : Blk → Blk) : St :=
  { s with heap := fun i => if i = b then f (s.heap i) else s.heap i }

/-- The pair of assignments `prv.nxt = nxt; nxt.prv = prv` of mmm/mmm.go:86-87 and 277-280. -/
def St.unlink (s : St) (b : Nat) : St :=
  let p := (s.heap b).prv
  let n := (s.heap b).nxt
  (s.upd p fun x => { x with nxt := n }).upd n fun x => { x with prv := p }

/-- `NewLifetime`, mmm/mmm.go:60-72. `choice` is what the pool returns. -/
def newLifetime (s : St) (choice : Nat) : St × List Ev :=
  match s.roots[choice]? with
  | some r =>
    let s := { s with roots := s.roots.eraseIdx choice }
    let s := s.upd r fun x => { x with api := false }
    let h := ⟨r, (s.heap r).rev⟩
    ({ s with lifes := s.lifes ++ [h] }, [.life h])
  | none =>
    let r := s.size
    let s := { s with size := s.size + 1 }
    let s := s.upd r fun _ => ⟨0, false, r, r, false, 0⟩
    let h := ⟨r, 0⟩
    ({ s with lifes := s.lifes ++ [h] }, [.life h])

/-- `newObjectWith`, mmm/mmm.go:114-121: the pool's choice or a fresh zeroed block. -/
def newBlock (s : St) (choice : Nat) : St × Nat :=
  match s.pool[choice]? with
  | some b => ({ s with pool := s.pool.eraseIdx choice }, b)
  | none => ({ (s.upd s.size fun _ => ⟨0, false, 0, 0, false, 0⟩) with size := s.size + 1 }, s.size)

/-- The list insertion of `New`, mmm/mmm.go:361-365. Note that `next.prv` and `root.prv` are not updated. -/
def St.link (s : St) (root b : Nat) : St :=
  let last := (s.heap root).prv
  let next := (s.heap last).nxt
  (s.upd last fun x => { x with nxt := b }).upd b fun x => { x with prv := last, nxt := next }

/-- `New`, mmm/mmm.go:354-375, without handing the result to the client. -/
def newRaw (s : St) (l : Hdl) (choice : Nat) (api : Bool) (v : Nat) : St × Hdl :=
  let t := newBlock s choice
  let s := (t.1.upd t.2 fun x => { x with api := api, val := v, fin := true }).link l.ref t.2
  (s, ⟨t.2, (s.heap t.2).rev⟩)

/-- `New`, mmm/mmm.go:354-375; with `pin`, `Pin`, mmm/mmm.go:379-384 (the returned handle keeps the
revision read before pinning). -/
def newPtr (s : St) (l : Hdl) (choice : Nat) (api : Bool) (v : Nat) (pin : Bool) : St × List Ev :=
  let (s, h) := newRaw s l choice api v
  let s := if pin then s.upd h.ref fun x => { x with rev := pinRev x.rev } else s
  ({ s with ptrs := s.ptrs ++ [h] }, [.ptr h])

/-- `readPointer`, mmm/mmm.go:179-188. -/
def get (s : St) (h : Hdl) : Ev :=
  if matchesRev (s.heap h.ref).rev h.rev then .got (s.heap h.ref).val else .crash

/-- `Set`, mmm/mmm.go:248-255. -/
def set (s : St) (h : Hdl) (v : Nat) : St × List Ev :=
  if matchesRev (s.heap h.ref).rev h.rev then (s.upd h.ref fun x => { x with val := v }, [])
  else (s, [.crash])

/-- The field updates of `End`, mmm/mmm.go:272-276. -/
def retire (x : Blk) : Blk :=
  if x.val ≠ 0 then { x with fin := false, val := 0, rev := (x.rev + 1) % 2 ^ 64 }
  else { x with fin := false }

/-- The part of `End` after the revision check, mmm/mmm.go:271-284. -/
def endBlk (s : St) (b : Nat) : St × Nat :=
  let t := (s.upd b retire).unlink b
  (if (t.heap b).rev < maxRevision then { t with pool := t.pool ++ [b] } else t, (s.heap b).val)

/-- The client calls `ptr.Free()`, whose body calls `End` (mmm/mmm.go:260-285) and releases the value. -/
def freePtr (s : St) (h : Hdl) : St × List Ev :=
  if matchesRev (s.heap h.ref).rev h.rev then
    let (s, v) := endBlk s h.ref
    (s, [.freed ⟨h.ref, h.rev % 2 ^ 62⟩ v])
  else (s, [.crash])

/-- `Move`, mmm/mmm.go:194-204: the arguments `getAPI(ptr)` and `End(ptr)` are evaluated before `New`. -/
def move (s : St) (h : Hdl) (l : Hdl) (choice : Nat) : St × List Ev :=
  if isPinned (s.heap h.ref).rev then (s, [.crash])
  else if !matchesRev (s.heap h.ref).rev h.rev then (s, [.crash])
  else
    let api := (s.heap h.ref).api
    let (s, v) := endBlk s h.ref
    let (s, h') := newRaw s l choice api v
    ({ s with ptrs := s.ptrs ++ [h'] }, [.moved ⟨h.ref, h.rev % 2 ^ 62⟩, .ptr h'])

/-- `(*freeable).free`, mmm/mmm.go:84-107. The call of a nil `end` panics. The handle it passes on has the
block's current revision, so `End` cannot fail its check. Returns whether it panicked. -/
def freeObj (s : St) (b : Nat) : St × List Ev × Bool :=
  let s := s.unlink b
  if (s.heap b).fin then
    let r := (s.heap b).rev
    let (s, v) := endBlk s b
    (s, [.freed ⟨b, r % 2 ^ 62⟩ v], false)
  else (s, [.crash], true)

/-- The loop of `Lifetime.End`, mmm/mmm.go:134-140, with a bound on the number of iterations; it is
shown in `Lemmas` that the bound used below is never reached. -/
def endLoop (s : St) (root : Nat) : Nat → St × List Ev × Bool
  | 0 => (s, [.crash], true)
  | fuel + 1 =>
    let next := (s.heap root).nxt
    if (s.heap next).api then
      let (s, ev, bad) := freeObj s next
      if bad then (s, ev, true)
      else
        let (s, ev', bad) := endLoop s root fuel
        (s, ev ++ ev', bad)
    else (s, [], false)

/-- `Lifetime.End`, mmm/mmm.go:125-145. -/
def endLife (s : St) (l : Hdl) : St × List Ev :=
  if (s.heap l.ref).rev ≠ l.rev then (s, [])
  else if (s.heap l.ref).api then
    let (s, ev, _) := freeObj s l.ref
    (s, ev)
  else
    let (s, ev, bad) := endLoop s l.ref (s.size + 1)
    if bad then (s, ev)
    else
      let s := s.upd l.ref fun x => { x with rev := (x.rev + 1) % 2 ^ 64 }
      let s := if (s.heap l.ref).rev < maxRevision then { s with roots := s.roots ++ [l.ref] } else s
      (s, ev)

/-- `Life`, mmm/mmm.go:208-217. -/
def life (s : St) (h : Hdl) : St × List Ev :=
  if isPinned (s.heap h.ref).rev then
    let l := ⟨h.ref, (s.heap h.ref).rev⟩
    ({ s with lifes := s.lifes ++ [l] }, [.life l])
  else (s, [.crash])

/-- The client's moves; pointers and lifetimes are named by the order in which they were obtained
(`mmm/mmm.go:60-375`). -/
inductive Op where
  | newLifetime (choice : Nat)
  | new (l : Nat) (choice : Nat) (api : Bool) (v : Nat) (pin : Bool)
  | get (p : Nat)
  | set (p : Nat) (v : Nat)
  | free (p : Nat)
  | move (p : Nat) (l : Nat) (choice : Nat)
  | life (p : Nat)
  | endLife (l : Nat)
  deriving DecidableEq, Repr

/-- One client move; naming a variable that does not exist yet does nothing
(mmm/mmm.go:60-375, the functions cited at each case). -/
def step (s : St) : Op → St × List Ev
  | .newLifetime c => newLifetime s c
  | .new l c api v pin => match s.lifes[l]? with
    | some h => newPtr s h c api v pin
    | none => (s, [])
  | .get p => match s.ptrs[p]? with
    | some h => (s, [get s h])
    | none => (s, [])
  | .set p v => match s.ptrs[p]? with
    | some h => set s h v
    | none => (s, [])
  | .free p => match s.ptrs[p]? with
    | some h => freePtr s h
    | none => (s, [])
  | .move p l c => match s.ptrs[p]?, s.lifes[l]? with
    | some h, some k => move s h k c
    | _, _ => (s, [])
  | .life p => match s.ptrs[p]? with
    | some h => life s h
    | none => (s, [])
  | .endLife l => match s.lifes[l]? with
    | some h => endLife s h
    | none => (s, [])

/-- A whole history of calls (mmm/mmm.go:60-375). -/
def run (s : St) : List Op → St × List Ev
  | [] => (s, [])
  | op :: t =>
    let (s, e) := step s op
    let (s, e') := run s t
    (s, e ++ e')

end Verif.Mmm
