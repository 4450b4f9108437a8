import Verif.Jrpc.Model
/-!
# JSON-RPC: floating point numbers: model

The float case of `(*Decoder).decode` (`api/jrpc/dec.go:169-206`). Floating point arithmetic is a parameter; `int64` and `uint` wrap around.
-/
namespace Verif.Jrpc.Fl

/-- The floating point operations used (`dec.go:205`). -/
structure Ops (F : Type) where
  ofInt : Int → F
  ofNat : Nat → F
  add : F → F → F
  div : F → F → F

/-- What was read so far (`dec.go:170-173`). -/
structure Acc where
  whole : BitVec 64
  fract : BitVec 64
  negative : Bool
  decimals : BitVec 64
  deriving DecidableEq, Repr

/-- The loop (`dec.go:174-201`): white space does not end a number here. -/
def loop (a : Acc) : List UInt8 → Except Err (Acc × List UInt8)
  | [] => .ok (a, [])
  | c :: t =>
    if c = 45 then loop { a with negative := true } t
    else if c = 46 then loop { a with decimals := 1 } t
    else if c = 44 ∨ c = 125 ∨ c = 93 then .ok (a, c :: t)
    else if c.toNat < 48 ∨ 57 < c.toNat then .error .notInteger
    else if a.decimals = 0 then loop { a with whole := a.whole * 10 + BitVec.ofNat 64 (c.toNat - 48) } t
    else loop { a with fract := a.fract * 10 + BitVec.ofNat 64 (c.toNat - 48), decimals := a.decimals * 10 } t

/-- The value (`dec.go:202-206`). -/
def value {F : Type} (o : Ops F) (a : Acc) : F :=
  o.add (o.ofInt (if a.negative then -a.whole else a.whole).toInt) (o.div (o.ofNat a.fract.toNat) (o.ofNat a.decimals.toNat))

/-- The float case, after white space (`dec.go:92-94`, `:169-206`). -/
def decFloat {F : Type} (o : Ops F) (s : List UInt8) : Except Err (F × List UInt8) := do
  let s ← skipWs s
  let (a, s) ← loop ⟨0, 0, false, 0⟩ s
  .ok (value o a, s)

end Verif.Jrpc.Fl
