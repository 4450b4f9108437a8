import Verif.Sql.Spec

/-
Model of concurrent calls on the in-memory database (sql/ram.go). Operations of `sync.Map` are atomic steps; `Mutate` and
`Delete` take the map's mutex, `Insert` and `Lookup` do not. Any number of calls interleave.
-/
namespace Verif.Sql

/-- Where a call is (`sql/ram.go:62-72`, `:124-162`). -/
inductive Pc (V : Type) where
  | start
  | locked                -- holds the mutex, sql/ram.go:126 and 142
  | loaded (v : V)        -- has read the value and passed the check, line 136 or 151 is next
  | unlocking (a : Ans V) -- the deferred Unlock is next
  | done (a : Ans V)

/-- A goroutine making one call (`sql/ram.go:62-72`, `:124-162`). -/
structure Caller (K V : Type) where
  op : Op K V
  pc : Pc V

/-- The shared map and mutex, and the callers. `log` is a ghost: which calls took effect, in which order
(`ram`, `sql/ram.go:21-27`). -/
structure CSt (K V : Type) where
  map : List (K × V)
  mutex : Option Nat
  callers : List (Caller K V)
  log : List Nat

/-- What can happen: a goroutine makes a call, or caller `t` takes a step (`sql/ram.go:62-72`, `:124-162`). -/
inductive CAct (K V : Type) where
  | call (op : Op K V)
  | run (t : Nat)

section
variable {K V : Type} [DecidableEq K]

/-- Set where a caller is (control flow of `sql/ram.go:124-153`). -/
def CSt.goto (s : CSt K V) (t : Nat) (op : Op K V) (pc : Pc V) : CSt K V := { s with callers := s.callers.set t ⟨op, pc⟩ }

/-- The call of `t` takes effect: the map becomes `m` (`sql/ram.go:64`, `:67`, `:136`, `:151`, `:156`). -/
def CSt.effect (s : CSt K V) (t : Nat) (m : List (K × V)) : CSt K V := { s with map := m, log := s.log ++ [t] }

/-- `Lock()` of a caller: it waits while someone else holds the mutex, sql/ram.go:125 and 141. -/
def CSt.lock (s : CSt K V) (t : Nat) (op : Op K V) : CSt K V :=
  match s.mutex with
  | some _ => s
  | none => { s with mutex := some t }.goto t op .locked

/-- `Unlock()` (`sql/ram.go:126`, `:142`). -/
def CSt.unlock (s : CSt K V) (t : Nat) (op : Op K V) (a : Ans V) : CSt K V := { s with mutex := none }.goto t op (.done a)

/-- Lines 127-135 (143-150) of sql/ram.go: read the value and check it. -/
def CSt.check (s : CSt K V) (t : Nat) (op : Op K V) (k : K) (check : Option (V → List Bool)) : CSt K V :=
  match load s.map k with
  | none => (s.effect t s.map).goto t op (.unlocking (.did false))
  | some v =>
    if refused (K := K) (check.map fun c v => (c v).map .value) v then (s.effect t s.map).goto t op (.unlocking (.did false))
    else s.goto t op (.loaded v)

/-- One step of a caller. `Insert` and `Lookup` (sql/ram.go:62-72, 155-162) are one operation of `sync.Map`. -/
def cstep (s : CSt K V) (t : Nat) (op : Op K V) (pc : Pc V) : CSt K V :=
  match op, pc with
  | .insert k u v, .start => (s.effect t (insert s.map k u v).1).goto t op (.done (.error (insert s.map k u v).2))
  | .lookup k, .start => (s.effect t s.map).goto t op (.done (.found (lookup s.map k)))
  | .delete _ _, .start => s.lock t op
  | .delete k c, .locked => s.check t op k c
  | .delete k _, .loaded _ => (s.effect t (delete s.map k)).goto t op (.unlocking (.did true))
  | .delete _ _, .unlocking a => s.unlock t op a
  | .mutate _ _ _, .start => s.lock t op
  | .mutate k c _, .locked => s.check t op k c
  | .mutate k _ p, .loaded v => (s.effect t (store s.map k (p v))).goto t op (.unlocking (.did true))
  | .mutate _ _ _, .unlocking a => s.unlock t op a
  | _, _ => s

/-- One step of the system (`sql/ram.go:62-72`, `:124-162`). -/
def cact (s : CSt K V) : CAct K V → CSt K V
  | .call op => { s with callers := s.callers ++ [⟨op, .start⟩] }
  | .run t =>
    match s.callers[t]? with
    | none => s
    | some c => cstep s t c.op c.pc

/-- Any number of steps on an empty map (`sql/ram.go:62-72`, `:124-162`). -/
def crun (as : List (CAct K V)) : CSt K V := as.foldl cact ⟨[], none, [], []⟩

/-! Specification -/

/-- Caller `t` has returned `a`. -/
def Answered (s : CSt K V) (t : Nat) (a : Ans V) : Prop := ∃ op, s.callers[t]? = some ⟨op, .done a⟩

/-- Running the calls one after another in the given order on a mathematical map. -/
def replay (s : CSt K V) (f : PMap K V) : List Nat → PMap K V
  | [] => f
  | t :: ts =>
    match s.callers[t]? with
    | none => replay s f ts
    | some c => replay s (onMap f c.op).1 ts

/-- In that order, caller by caller, the answers are those the callers got. -/
def Explains (s : CSt K V) (f : PMap K V) : List Nat → Prop
  | [] => True
  | t :: ts => ∃ c, s.callers[t]? = some c ∧ Answered s t (onMap f c.op).2 ∧ Explains s (onMap f c.op).1 ts

/-- No call is an upsert. -/
def NoUpsert (as : List (CAct K V)) : Prop := ∀ a ∈ as, ∀ k v, a ≠ .call (.insert k true v)

/-- Every caller has returned. -/
def AllReturned (s : CSt K V) : Prop := ∀ t < s.callers.length, ∃ a, Answered s t a

/-- `order` has every caller once, running the calls in that order gives each the answer it got and leaves the map as it is. -/
def Serial (s : CSt K V) (order : List Nat) : Prop :=
  order.Perm (List.range s.callers.length) ∧ Explains s (fun _ => none) order ∧ replay s (fun _ => none) order = load s.map

end
end Verif.Sql
