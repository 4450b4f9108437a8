/-!
# Model of api/xray (xray.go)

Goroutines are numbered. `T` is the type of Go types, `V` that of values, `ty` gives the dynamic
type of a value. A Go channel is the list of the values in it and its capacity.
-/
namespace Verif.Xray

/-- Where a goroutine is (xray.go:32-92). -/
inductive Pc (T V : Type)
  | idle
  /-- `ContextAdd`, before `mutex.Lock` (xray.go:38). -/
  | adding (v : V)
  /-- `ContextAdd`, holding the lock (xray.go:39-57). -/
  | locked (v : V)
  /-- `ContextGet`, before `mutex.RLock` (xray.go:77). -/
  | getting (t : T)
  /-- `ContextGet`, before the length is looked at (xray.go:79-83). -/
  | looking (t : T)
  /-- `ContextGet`, in the select (xray.go:84-89). -/
  | waiting (t : T)

/-- A goroutine in this place holds the read lock (xray.go:77-78). -/
def Pc.reads {T V : Type} : Pc T V → Prop
  | .looking _ | .waiting _ => True
  | _ => False

/-- A goroutine in this place holds the write lock (xray.go:38-39). -/
def Pc.writes {T V : Type} : Pc T V → Prop
  | .locked _ => True
  | _ => False

/-- The state of a context: the channels (xray.go:14-17), the goroutines, and, for the
specification, all values added and all values got so far, in order. -/
structure St (T V : Type) where
  chans : T → Option (List V × Nat)
  pc : Nat → Pc T V
  added : List V
  got : List (T × V)

/-- `NewContext` (xray.go:21-25). -/
def St.init {T V : Type} : St T V := ⟨fun _ => none, fun _ => .idle, [], []⟩

/-- Replacing one entry of a function (`set.value[t] = ch`, xray.go:40-55). -/
def upd {A B : Type} [DecidableEq A] (f : A → B) (a : A) (b : B) : A → B := fun x => if x = a then b else f x

/-- The channel that `ContextAdd` sends to (xray.go:40-55): a new one of capacity one if there is
none, one of twice the capacity with the same values if it is full. -/
def grown {V : Type} (o : Option (List V × Nat)) : List V × Nat :=
  let (buf, cap) := o.getD ([], 1)
  if buf.length = cap then (buf, cap * 2) else (buf, cap)

/-- Sending (xray.go:57): none is blocking. -/
def send {V : Type} (ch : List V × Nat) (v : V) : Option (List V × Nat) :=
  if ch.1.length < ch.2 then some (ch.1 ++ [v], ch.2) else none

/-- One step of one goroutine. A `sync.RWMutex` can be locked by a writer if nobody holds it, by a
reader if no writer holds it (that waiting writers go before new readers is left out, which only
allows more executions). `done` says whether the context is done (`xray.go:32-92`). -/
inductive Step {T V : Type} [DecidableEq T] (ty : V → T) (done : Bool) : Nat → St T V → St T V → Prop
  | callAdd (s : St T V) (i : Nat) (v : V) : s.pc i = .idle →
      Step ty done i s { s with pc := upd s.pc i (.adding v) }
  | lock (s : St T V) (i : Nat) (v : V) : s.pc i = .adding v → (∀ j, ¬ (s.pc j).reads ∧ ¬ (s.pc j).writes) →
      Step ty done i s { s with pc := upd s.pc i (.locked v) }
  | add (s : St T V) (i : Nat) (v : V) (ch : List V × Nat) : s.pc i = .locked v →
      send (grown (s.chans (ty v))) v = some ch →
      Step ty done i s { chans := upd s.chans (ty v) (some ch), pc := upd s.pc i .idle,
                         added := s.added ++ [v], got := s.got }
  | callGet (s : St T V) (i : Nat) (t : T) : s.pc i = .idle →
      Step ty done i s { s with pc := upd s.pc i (.getting t) }
  | rlock (s : St T V) (i : Nat) (t : T) : s.pc i = .getting t → (∀ j, ¬ (s.pc j).writes) →
      Step ty done i s { s with pc := upd s.pc i (.looking t) }
  | some (s : St T V) (i : Nat) (t : T) (v : V) (buf : List V) (cap : Nat) : s.pc i = .looking t →
      s.chans t = some (v :: buf, cap) →
      Step ty done i s { s with pc := upd s.pc i (.waiting t) }
  | none (s : St T V) (i : Nat) (t : T) : s.pc i = .looking t →
      (∀ v buf cap, s.chans t ≠ some (v :: buf, cap)) →
      Step ty done i s { s with pc := upd s.pc i .idle }
  | receive (s : St T V) (i : Nat) (t : T) (v : V) (buf : List V) (cap : Nat) : s.pc i = .waiting t →
      s.chans t = some (v :: buf, cap) →
      Step ty done i s { chans := upd s.chans t (some (buf, cap)), pc := upd s.pc i .idle,
                         added := s.added, got := s.got ++ [(t, v)] }
  | cancel (s : St T V) (i : Nat) (t : T) : s.pc i = .waiting t → done = true →
      Step ty done i s { s with pc := upd s.pc i .idle }

/-- The states that can be reached (xray.go:21-92). -/
inductive Reach {T V : Type} [DecidableEq T] (ty : V → T) (done : Bool) (s₀ : St T V) : St T V → Prop
  | refl : Reach ty done s₀ s₀
  | step {s s' : St T V} {i : Nat} : Reach ty done s₀ s → Step ty done i s s' → Reach ty done s₀ s'

/-! ## Contexts -/

/-- What the key of a context holds: no value at all, nil (`ContextOff`, xray.go:28-30) or a set. -/
inductive Ctx (S : Type)
  | without | off
  | on (s : S)

/-- `ctx.Value(key{}).(*values)` with a second result: a nil interface is no `*values` (xray.go:34,
61). -/
def Ctx.set? {S : Type} : Ctx S → Option S
  | .on s => some s
  | _ => none

/-- `ContextGet` (xray.go:74-92) run alone: the value, none a panic (the type assertion at line 76
has no second result). The queue is `q`, the queue for type `T`. -/
def getAlone {V : Type} (zero : V) (c : Ctx (List V)) : Option V :=
  match c with
  | .on [] => some zero
  | .on (v :: _) => some v
  | _ => none

/-- `ContextHas` (xray.go:61-70) run alone. -/
def hasAlone {V : Type} (c : Ctx (List V)) : Bool :=
  match c.set? with
  | none => false
  | some q => q.length > 0

/-! ## Readers and writers -/

/-- An `io.Reader` that gives some bytes and then an end, or an error (xray.go:106, 118). -/
structure Source where
  bytes : List UInt8
  err : Option Nat

/-- What a `Reader` gives to the one who reads it, and what `Bytes` returns (xray.go:94-141). -/
structure Wrapped where
  read : Source
  bytes : List UInt8

/-- `NewReader` (xray.go:106-125) for a source that is no `Reader` yet; `text` is the message of
`offReader.Bytes`. -/
def newReader {S : Type} (text : List UInt8) (c : Ctx S) (r : Source) : Wrapped :=
  match c.set? with
  | none => ⟨r, text⟩
  | some _ => match r.err with
    | some e => ⟨⟨[], some e⟩, text⟩
    | none => ⟨⟨r.bytes, none⟩, r.bytes⟩

/-- A `Writer` (xray.go:189-204): the buffer and the underlying writer's state, which takes a list of
bytes and says how many it took and whether it failed. -/
structure WState (σ : Type) where
  buffer : List UInt8
  under : σ

/-- `writer.Write` (xray.go:198-204); a `bytes.Buffer` does not fail. -/
def write {σ : Type} (w : σ → List UInt8 → σ × Nat × Option Nat) (s : WState σ) (p : List UInt8) :
    WState σ × Nat × Option Nat :=
  (⟨s.buffer ++ p, (w s.under p).1⟩, (w s.under p).2)

end Verif.Xray
