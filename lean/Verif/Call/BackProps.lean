import Verif.Call.BackModel
import Verif.Call.LinkProps
import Mathlib.Logic.Relation

/-! # Properties of callbacks (C102, C103) -/

namespace Verif.Call

namespace Spec
variable {F : Type}

/-- The integer kinds that a callback can have. -/
def backInts : List Kind := [.int8, .int16, .int32, .int64, .uint8, .uint16, .uint32, .uint64]

/-- A C caller passes, for a parameter of a Go type, a slot that stands for a Go value: the low bits of an
integer count, the rest of the slot may be anything. -/
inductive Passes : GT → Slot F → V F → Prop where
  | bool {b : Bool} {n : Nat} : n % 2 ^ 32 = (if b then 1 else 0) → Passes (.kind .bool) (.word n) (.bool b)
  | int {k : Kind} {s : Bool} {w n : Nat} {x : Int} : k ∈ backInts → k.integer = some (s, w) → Fits s w x →
      (2 ^ w : Int) ∣ (n : Int) - x → Passes (.kind k) (.word n) (.int k x)
  | float {x : F} : Passes (.kind .float32) (.float x) (.float .float32 x)
  | double {x : F} : Passes (.kind .float64) (.double x) (.float .float64 x)
  | address {p : Nat} : p < 2 ^ 64 → Passes (.kind .uintptr) (.word p) (.int .uintptr p)
  | pointer {k : Kind} {p : Nat} : k = .pointer ∨ k = .unsafePointer →
      Passes (.kind k) (.word p) (.pointer k p)

/-- Whether a slot goes to the integer registers. -/
def Slot.isWord : Slot F → Bool
  | .word _ => true
  | _ => false

/-- Where the System V convention puts arguments, with `i` integer and `f` float registers left: in the next
register of their class, or else on the stack. -/
def place : Nat → Nat → List (Slot F) → CArgs F
  | _, _, [] => ⟨[], [], []⟩
  | i, f, s :: rest =>
    match Slot.isWord s, i, f with
    | true, i + 1, f => let r := place i f rest; ⟨s :: r.ints, r.floats, r.stack⟩
    | true, 0, f => let r := place 0 f rest; ⟨r.ints, r.floats, s :: r.stack⟩
    | false, i, f + 1 => let r := place i f rest; ⟨r.ints, s :: r.floats, r.stack⟩
    | false, i, 0 => let r := place i 0 rest; ⟨r.ints, r.floats, s :: r.stack⟩

/-- The registers and the stack when C calls with these arguments: the other registers and the rest of the
stack hold anything. -/
def Placed (i f : Nat) (slots : List (Slot F)) (a : CArgs F) : Prop :=
  ∃ gi gf gs, a.ints = (place i f slots).ints ++ gi ∧ a.floats = (place i f slots).floats ++ gf ∧
    a.stack = (place i f slots).stack ++ gs ∧ a.ints.length = i ∧ a.floats.length = f

/-- What C should get for a Go result of a type. -/
inductive Gives : GT → V F → CRes F → Prop where
  | bool {b : Bool} : Gives (.kind .bool) (.bool b) (.bool b)
  | int {k : Kind} {s : Bool} {w b : Nat} {x : Int} : k ∈ backInts → k.integer = some (s, w) →
      b < 2 ^ w → (2 ^ w : Int) ∣ (b : Int) - x → Gives (.kind k) (.int k x) (.int w b)
  | float {x : F} : Gives (.kind .float32) (.float .float32 x) (.float x)
  | double {x : F} : Gives (.kind .float64) (.float .float64 x) (.double x)
  | address {p : Nat} : Gives (.kind .uintptr) (.int .uintptr p) (.pointer p)
  | pointer {k : Kind} {p : Nat} : k = .pointer ∨ k = .unsafePointer →
      Gives (.kind k) (.pointer k p) (.pointer p)
  | wrapped {k : Kind} {p : Nat} : k = .pointer ∨ k = .unsafePointer →
      Gives (.struct1 (.kind k)) (.pointer k p) (.pointer p)
  | callback {p : Nat} : Gives .callback (.pointer .pointer p) (.pointer p)

/-- Results of a type. -/
inductive Result : GT → V F → Prop where
  | bool {b : Bool} : Result (.kind .bool) (.bool b)
  | int {k : Kind} {x : Int} : k ∈ backInts → Result (.kind k) (.int k x)
  | float {x : F} : Result (.kind .float32) (.float .float32 x)
  | double {x : F} : Result (.kind .float64) (.float .float64 x)
  | address {p : Nat} : p < 2 ^ 64 → Result (.kind .uintptr) (.int .uintptr p)
  | pointer {k : Kind} {p : Nat} : k = .pointer ∨ k = .unsafePointer → Result (.kind k) (.pointer k p)
  | wrapped {k : Kind} {p : Nat} : k = .pointer ∨ k = .unsafePointer →
      Result (.struct1 (.kind k)) (.pointer k p)
  | callback {p : Nat} : Result .callback (.pointer .pointer p)

end Spec

open Spec

section
variable {F : Type}

theorem wrap_of_dvd {k : Kind} {s : Bool} {w : Nat} (hk : k.integer = some (s, w)) (hw : 0 < w) {n c : Int}
    (hf : Fits s w c) (hd : (2 ^ w : Int) ∣ n - c) : wrap k n = c := by
  obtain ⟨v, rfl⟩ : ∃ v, w = v + 1 := ⟨w - 1, by omega⟩
  have hp : (0 : Int) < 2 ^ v := by positivity
  cases s with
  | false =>
    simp only [wrap, hk]
    simp only [Fits, Bool.false_eq_true, if_false] at hf
    change n % _ = c
    rw [Int.emod_eq_emod_iff_emod_sub_eq_zero.2 (Int.emod_eq_zero_of_dvd hd), Int.emod_eq_of_lt hf.1 hf.2]
  | true =>
    simp only [wrap, hk]
    simp only [Fits, if_true, Nat.add_sub_cancel] at hf
    have : n.bmod (2 ^ (v + 1)) = c.bmod (2 ^ (v + 1)) := by
      rw [Int.bmod_eq_bmod_iff_bmod_sub_eq_zero]
      apply Int.bmod_eq_zero_of_dvd
      push_cast
      exact hd
    rw [this]
    apply Int.bmod_eq_of_le_mul_two
    · push_cast; rw [pow_succ]; omega
    · push_cast; rw [pow_succ]; omega

/-- The signature character of an integer kind. -/
theorem sig_int : ∀ k ∈ backInts, ∃ s w sg, k.integer = some (s, w) ∧ 0 < w ∧ sigRune (.kind k) = some sg ∧
    sg ≠ .void ∧
    (∀ n : Nat, readArg (F := F) (.kind k) sg = fun a => a.nextInt.bind fun p => match p.1 with
      | .word n => ((if s then setInt (.kind k) (readInt k n) else setUint (.kind k) (readInt k n)).map
          fun v => (v, p.2))
      | _ => none) ∧
    (∀ v : V F, writeResult sg (.kind k) v = writeInt s w v) := by
  intro k hk
  simp only [backInts, List.mem_cons, List.not_mem_nil, or_false] at hk
  rcases hk with rfl | rfl | rfl | rfl | rfl | rfl | rfl | rfl
  · exact ⟨true, 8, .char, rfl, by omega, by decide, by decide, fun _ => rfl, fun v => rfl⟩
  · exact ⟨true, 16, .short, rfl, by omega, by decide, by decide, fun _ => rfl, fun v => rfl⟩
  · exact ⟨true, 32, .int, rfl, by omega, by decide, by decide, fun _ => rfl, fun v => rfl⟩
  · exact ⟨true, 64, .long, rfl, by omega, by decide, by decide, fun _ => rfl, fun v => rfl⟩
  · exact ⟨false, 8, .uchar, rfl, by omega, by decide, by decide, fun _ => rfl, fun v => rfl⟩
  · exact ⟨false, 16, .ushort, rfl, by omega, by decide, by decide, fun _ => rfl, fun v => rfl⟩
  · exact ⟨false, 32, .uint, rfl, by omega, by decide, by decide, fun _ => rfl, fun v => rfl⟩
  · exact ⟨false, 64, .ulong, rfl, by omega, by decide, by decide, fun _ => rfl, fun v => rfl⟩

/-- Taking the next slot of a class. -/
def next (s : Slot F) (a : CArgs F) : Option (Slot F × CArgs F) :=
  if Slot.isWord s then a.nextInt else a.nextFloat

/-- The next slot is there, and the others are placed as before. -/
theorem next_placed {i f : Nat} {s : Slot F} {slots : List (Slot F)} {a : CArgs F}
    (h : Placed i f (s :: slots) a) : ∃ i' f' a', next s a = some (s, a') ∧ Placed i' f' slots a' := by
  obtain ⟨gi, gf, gs, h1, h2, h3, h4, h5⟩ := h
  obtain ⟨ai, af, as⟩ := a
  dsimp only at h1 h2 h3 h4 h5
  cases hs : Slot.isWord s with
  | true =>
    cases i with
    | zero =>
      simp only [place, hs] at h1 h2 h3
      have : ai = [] := by simpa using h4
      subst this
      refine ⟨0, f, ⟨[], af, (place 0 f slots).stack ++ gs⟩, ?_, gi, gf, gs, h1, h2, rfl, rfl, h5⟩
      simp [next, hs, CArgs.nextInt, h3]
    | succ i =>
      simp only [place, hs] at h1 h2 h3
      subst h1
      refine ⟨i, f, ⟨(place i f slots).ints ++ gi, af, as⟩, ?_, gi, gf, gs, rfl, h2, h3, by simpa using h4, h5⟩
      simp [next, hs, CArgs.nextInt]
  | false =>
    cases f with
    | zero =>
      have : place i 0 (s :: slots) = ⟨(place i 0 slots).ints, (place i 0 slots).floats, s :: (place i 0 slots).stack⟩ := by
        simp [place, hs]
      rw [this] at h1 h2 h3
      dsimp only at h1 h2 h3
      have e : af = [] := by simpa using h5
      subst e
      refine ⟨i, 0, ⟨ai, [], (place i 0 slots).stack ++ gs⟩, ?_, gi, gf, gs, h1, h2, rfl, h4, rfl⟩
      simp [next, hs, CArgs.nextFloat, h3]
    | succ f =>
      have : place i (f + 1) (s :: slots) = ⟨(place i f slots).ints, s :: (place i f slots).floats, (place i f slots).stack⟩ := by
        simp [place, hs]
      rw [this] at h1 h2 h3
      dsimp only at h1 h2 h3
      subst h2
      refine ⟨i, f, ⟨ai, (place i f slots).floats ++ gf, as⟩, ?_, gi, gf, gs, h1, rfl, h3, h4, by simpa using h5⟩
      simp [next, hs, CArgs.nextFloat]

/-- A slot that stands for a value is read as it. -/
theorem read_one {t : GT} {s : Slot F} {v : V F} (h : Passes t s v) : ∃ sg, sigRune t = some sg ∧
    ∀ a a', next s a = some (s, a') → readArg t sg a = some (v, a') := by
  cases h with
  | @bool b n hb =>
    refine ⟨.bool, by decide, fun a a' ha => ?_⟩
    have ha : a.nextInt = some (.word n, a') := by simpa [next, Slot.isWord] using ha
    have : (n % 2 ^ 32 != 0) = b := by
      rw [hb]; cases b <;> rfl
    simp only [readArg, ha, Option.bind_eq_bind, Option.bind_some, setWord, setBool, this]
    rfl
  | @int k s w n x hk hi hf hd =>
    obtain ⟨s', w', sg, h1, h2, h3, h4, h5, h6⟩ := sig_int (F := F) k hk
    rw [hi] at h1
    cases h1
    refine ⟨sg, h3, fun a a' ha => ?_⟩
    have ha : a.nextInt = some (.word n, a') := by simpa [next, Slot.isWord] using ha
    rw [h5 n]
    simp only [ha, Option.bind_some]
    have e1 : readInt k n = x := wrap_of_dvd hi h2 hf hd
    have e2 : wrap k x = x := wrap_of_dvd hi h2 hf ⟨0, by ring⟩
    cases s
    · simp [setUint, hi, e1, e2]
    · simp [setInt, hi, e1, e2]
  | @float x =>
    refine ⟨.float, by decide, fun a a' ha => ?_⟩
    have ha : a.nextFloat = some (.float x, a') := by simpa [next, Slot.isWord] using ha
    simp only [readArg, ha, Option.bind_eq_bind, Option.bind_some, setFloat]
    rfl
  | @double x =>
    refine ⟨.double, by decide, fun a a' ha => ?_⟩
    have ha : a.nextFloat = some (.double x, a') := by simpa [next, Slot.isWord] using ha
    simp only [readArg, ha, Option.bind_eq_bind, Option.bind_some, setFloat]
    rfl
  | @address p hp =>
    refine ⟨.pointer, by decide, fun a a' ha => ?_⟩
    have ha : a.nextInt = some (.word p, a') := by simpa [next, Slot.isWord] using ha
    have : wrap .uintptr (p : Int) = p := by
      apply wrap_of_dvd (s := false) (w := 64) rfl (by omega)
      · simp only [Fits, Bool.false_eq_true, if_false]
        exact ⟨by omega, by exact_mod_cast hp⟩
      · exact ⟨0, by ring⟩
    simp only [readArg, ha, Option.bind_eq_bind, Option.bind_some, setWord, setPointer, this]
    rfl
  | @pointer k p hk =>
    rcases hk with rfl | rfl
    · refine ⟨.pointer, by decide, fun a a' ha => ?_⟩
      have ha : a.nextInt = some (.word p, a') := by simpa [next, Slot.isWord] using ha
      simp only [readArg, ha, Option.bind_eq_bind, Option.bind_some, setWord, setPointer]
      rfl
    · refine ⟨.pointer, by decide, fun a a' ha => ?_⟩
      have ha : a.nextInt = some (.word p, a') := by simpa [next, Slot.isWord] using ha
      simp only [readArg, ha, Option.bind_eq_bind, Option.bind_some, setWord, setPointer]
      rfl

theorem read_all : ∀ {ts : List GT} {svs : List (Slot F × V F)} {i f : Nat} {a : CArgs F},
    List.Forall₂ (fun t (sv : Slot F × V F) => Passes t sv.1 sv.2) ts svs →
    Placed i f (svs.map (·.1)) a → ∃ sigs, ts.mapM sigRune = some sigs ∧
      readArgs ts sigs a = some (svs.map (·.2))
  | [], _, _, _, _, .nil, _ => ⟨[], rfl, rfl⟩
  | t :: ts, (s, v) :: svs, i, f, a, .cons h hs, hp => by
    obtain ⟨i', f', a', e1, e2⟩ := next_placed hp
    obtain ⟨sg, g1, g2⟩ := read_one h
    obtain ⟨sigs, k1, k2⟩ := read_all hs e2
    refine ⟨sg :: sigs, ?_, ?_⟩
    · simp [List.mapM_cons, g1, k1]
    · simp [readArgs, g2 a a' e1, k2]

theorem write_one {t : GT} {v : V F} (h : Result t v) : ∃ sg r, sigRune t = some sg ∧ sg ≠ .void ∧
    writeResult sg t v = some r ∧ Gives t v r := by
  cases h with
  | @bool b => exact ⟨.bool, _, by decide, by decide, rfl, .bool⟩
  | @int k x hk =>
    obtain ⟨s, w, sg, h1, h2, h3, h4, h5, h6⟩ := sig_int (F := F) k hk
    refine ⟨sg, .int w (x.emod (2 ^ w)).toNat, h3, h4, ?_, .int hk h1 (emod_bits x w).1 (emod_bits x w).2⟩
    rw [h6]
    simp [writeInt, h1]
  | float => exact ⟨.float, _, by decide, by decide, rfl, .float⟩
  | double => exact ⟨.double, _, by decide, by decide, rfl, .double⟩
  | @address p hp =>
    refine ⟨.pointer, .pointer p, by decide, by decide, ?_, .address⟩
    have : ((p : Int).emod (2 ^ 64)).toNat = p := by
      change ((p : Int) % 2 ^ 64).toNat = p
      omega
    simp only [writeResult, writePointer, this]
  | @pointer k p hk =>
    rcases hk with rfl | rfl
    · exact ⟨.pointer, _, by decide, by decide, rfl, .pointer (.inl rfl)⟩
    · exact ⟨.pointer, _, by decide, by decide, rfl, .pointer (.inr rfl)⟩
  | @wrapped k p hk =>
    rcases hk with rfl | rfl
    · exact ⟨.pointer, _, by decide, by decide, rfl, .wrapped (.inl rfl)⟩
    · exact ⟨.pointer, _, by decide, by decide, rfl, .wrapped (.inr rfl)⟩
  | callback => exact ⟨.pointer, _, by decide, by decide, rfl, .callback⟩

/-- **C102, partial**: a Go function of any number of booleans, integers of a given size, floats and
pointers can be set as a callback, and when C calls it, with its arguments in registers and on the stack,
it is called with exactly these values, and C gets its result. -/
theorem callback_partial (f : GoFunc F) (svs : List (Slot F × V F)) (a : CArgs F)
    (hin : List.Forall₂ (fun t (sv : Slot F × V F) => Passes t sv.1 sv.2) f.ins svs)
    (hp : Placed 6 8 (svs.map (·.1)) a) :
    (f.outs = [] → setAndCall 1 f a = some (.returned (svs.map (·.2)) .void)) ∧
    (∀ t v, f.outs = [t] → f.run (svs.map (·.2)) = [v] → Result t v →
      ∃ r, setAndCall 1 f a = some (.returned (svs.map (·.2)) r) ∧ Gives t v r) := by
  obtain ⟨sigs, e1, e2⟩ := read_all hin hp
  constructor
  · intro ho
    simp [setAndCall, newSignature, e1, ho, handle, e2]
  · intro t v ho hr ht
    obtain ⟨sg, r, g1, g2, g3, g4⟩ := write_one ht
    refine ⟨r, ?_, g4⟩
    simp [setAndCall, newSignature, e1, ho, handle, e2, g1, g2, g3, hr]

/-- Nine arguments of two classes: the seventh integer is on the stack. -/
example : setAndCall (F := Nat) 1
    ⟨[.kind .int32, .kind .float64, .kind .uint8, .kind .int64, .kind .bool, .kind .int8, .kind .pointer, .kind .int16],
      [.kind .int32], fun vs => [.int .int32 (-(vs.length : Int))]⟩
    ⟨[.word (2 ^ 32 - 5), .word 511, .word 3, .word 1, .word 128, .word 4096], [.double 7, .double 0, .double 0,
      .double 0, .double 0, .double 0, .double 0, .double 0], [.word 65535]⟩ =
    some (.returned [.int .int32 (-5), .float .float64 7, .int .uint8 255, .int .int64 3, .bool true,
      .int .int8 (-128), .pointer .pointer 4096, .int .int16 (-1)] (.int 32 (2 ^ 32 - 8))) := by
  rfl

/-- **C102, violated**: no function with a parameter or result of type `int` or `uint` can be set. -/
theorem callback_int_fails (f : GoFunc F) (a : CArgs F) (k : Kind) (hk : k = .int ∨ k = .uint)
    (h : GT.kind k ∈ f.ins ∨ ∃ rest, f.outs = .kind k :: rest) : setAndCall 1 f a = none := by
  have hs : sigRune (.kind k) = none := by rcases hk with rfl | rfl <;> decide
  have hm : ∀ ts : List GT, GT.kind k ∈ ts → ts.mapM sigRune = none := by
    intro ts
    induction ts with
    | nil => intro h; cases h
    | cons t ts ih =>
      intro h
      rcases List.mem_cons.1 h with rfl | h
      · simp [List.mapM_cons, hs]
      · cases ht : sigRune t <;> simp [List.mapM_cons, ht, ih h]
  rcases h with h | ⟨rest, h⟩
  · simp [setAndCall, newSignature, hm _ h]
  · simp only [setAndCall, newSignature, h]
    cases f.ins.mapM sigRune <;> simp [hs]

/-- Types that are taken for a callback but cannot be read: strings, functions, other callbacks and structs
with one field. -/
inductive Unread : GT → Prop where
  | string : Unread (.kind .string)
  | func : Unread (.kind .func)
  | callback : Unread .callback
  | struct1 {t : GT} : Unread (.struct1 t)

theorem unread_none {t : GT} (h : Unread t) (s : Sig) (hs : sigRune t = some s) (a : CArgs F) :
    readArg t s a = none := by
  have hset : ∀ n, setWord (F := F) t s n = none := by
    intro n
    cases h with
    | string => cases (show s = .string by simpa using (Option.some.inj (hs.symm.trans (by decide : sigRune (.kind .string) = some .string)))); rfl
    | func => cases (show s = .pointer by simpa using (Option.some.inj (hs.symm.trans (by decide : sigRune (.kind .func) = some .pointer)))); rfl
    | callback => cases (show s = .pointer by simpa using (Option.some.inj (hs.symm.trans (by decide : sigRune .callback = some .pointer)))); rfl
    | struct1 => cases s <;> rfl
  have hfl : ∀ x, setFloat (F := F) t x = none := by
    intro x
    cases h <;> rfl
  cases s <;> simp only [readArg, hset, hfl]
  all_goals first
    | rfl
    | (cases hn : a.nextInt with
      | none => rfl
      | some p => obtain ⟨x, a'⟩ := p; cases x <;> rfl)
    | (cases hn : a.nextFloat with
      | none => rfl
      | some p => obtain ⟨x, a'⟩ := p; cases x <;> rfl)

/-- **C102, violated**: functions with such a parameter are accepted, but when C calls them there is a
panic on its stack and the function is never called. -/
theorem callback_unread_fails (f : GoFunc F) (t : GT) (ht : Unread t) (h : t ∈ f.ins) (a : CArgs F) :
    setAndCall 1 f a = none ∨ setAndCall 1 f a = some .panicked := by
  have key : ∀ (ts : List GT), t ∈ ts → ∀ sigs a, ts.mapM sigRune = some sigs →
      readArgs (F := F) ts sigs a = none := by
    intro ts
    induction ts with
    | nil => intro h; cases h
    | cons u ts ih =>
      intro hm sigs a hs
      cases hu : sigRune u with
      | none => simp [List.mapM_cons, hu] at hs
      | some s =>
        cases hr : ts.mapM sigRune with
        | none => simp [List.mapM_cons, hu, hr] at hs
        | some rest =>
          simp [List.mapM_cons, hu, hr] at hs
          subst hs
          rcases List.mem_cons.1 hm with rfl | hm
          · simp [readArgs, unread_none ht s hu a]
          · cases hx : readArg (F := F) u s a with
            | none => simp [readArgs, hx]
            | some p => simp [readArgs, hx, ih hm rest p.2 hr]
  cases hs : newSignature 1 f.ins f.outs with
  | none => left; simp [setAndCall, hs]
  | some sig =>
    right
    have hi : f.ins.mapM sigRune = some sig.1 := by
      cases hm : f.ins.mapM sigRune with
      | none => simp [newSignature, hm] at hs
      | some args =>
        simp only [newSignature, hm, Option.bind_eq_bind, Option.bind_some] at hs
        split at hs
        · cases hs; rfl
        · rename_i o rest _
          split at hs
          · cases ho : sigRune o with
            | none => simp [ho] at hs
            | some r => simp [ho] at hs; rw [← hs]
          · cases hs; rfl
    simp [setAndCall, hs, handle, key f.ins h sig.1 a hi]

example : setAndCall (F := Nat) 1 ⟨[.kind .string], [], fun _ => []⟩ ⟨[.word 4096], [], []⟩ = some .panicked := by
  rfl

/-- **C102, violated**: a function passed for a `func` parameter by `internal/ffi` never gives C its result,
if it has one. -/
theorem ffi_result_fails (f : GoFunc F) (t : GT) (a : CArgs F) (ho : f.outs = [t]) (args : List (V F)) (r : CRes F)
    (h : setAndCall 2 f a = some (.returned args r)) : r = .void := by
  cases hm : f.ins.mapM sigRune with
  | none => simp [setAndCall, newSignature, hm] at h
  | some sigs =>
    simp only [setAndCall, newSignature, hm, ho, Option.bind_eq_bind, Option.bind_some, List.length_nil] at h
    rw [if_neg (by omega)] at h
    simp only [Option.pure_def, Option.map_some, Option.some.injEq, handle] at h
    cases hr : readArgs f.ins sigs a with
    | none => simp [hr] at h
    | some vs => simp [hr] at h; exact h.2.symm

example : setAndCall (F := Nat) 2 ⟨[], [.kind .int32], fun _ => [.int .int32 7]⟩ ⟨[], [], []⟩ =
    some (.returned [] .void) := by rfl

end

/-! ## C103: callbacks call their own function -/

section
variable {H : Type}

theorem makeAll_prefix : ∀ (hs fs : List H), ∃ tail, (makeAll hs fs).2 = fs ++ tail
  | [], fs => ⟨[], by simp [makeAll]⟩
  | h :: hs, fs => by
    obtain ⟨tail, e⟩ := makeAll_prefix hs (fs ++ [h])
    exact ⟨h :: tail, by simp [makeAll, e]⟩

/-- **C103, partial**: callbacks that are made one after the other call their own function, however many are
made before and after. -/
theorem callbacks_own_partial : ∀ (hs fs : List H) (i : Nat) (h : H), hs[i]? = some h →
    ∃ n, (makeAll hs fs).1[i]? = some n ∧ bridge (makeAll hs fs).2 n = some h
  | g :: hs, fs, 0, h, e => by
    simp only [List.getElem?_cons_zero, Option.some.injEq] at e
    subst e
    obtain ⟨tail, ht⟩ := makeAll_prefix hs (fs ++ [g])
    refine ⟨fs.length + 1, by simp [makeAll], ?_⟩
    simp [makeAll, ht, bridge]
  | g :: hs, fs, i + 1, h, e => by
    simp only [List.getElem?_cons_succ] at e
    obtain ⟨n, e1, e2⟩ := callbacks_own_partial hs (fs ++ [g]) i h e
    exact ⟨n, by simpa [makeAll] using e1, by simpa [makeAll] using e2⟩

example : (makeAll ["a", "b"] []).1 = [1, 2] ∧ bridge (makeAll ["a", "b"] []).2 2 = some "b" := by decide

/-- **C103, violated**: if two goroutines set callbacks at the same time, the callback of one may call the
function of the other. -/
theorem callbacks_race_fails (h1 h2 : H) (hne : h1 ≠ h2) : ∃ s : Makers H,
    Relation.ReflTransGen Makers.Step ⟨[], [.start h1, .start h2]⟩ s ∧
    s.threads = [.made h1 1, .made h2 1] ∧ bridge s.functions 1 = some h2 ∧ bridge s.functions 1 ≠ some h1 := by
  refine ⟨⟨[h2], [.made h1 1, .made h2 1]⟩, ?_, rfl, rfl, ?_⟩
  · refine .head (.load (i := 0) (h := h1) rfl) ?_
    refine .head (.load (i := 1) (h := h2) rfl) ?_
    refine .head (.store (i := 0) (h := h1) (seen := []) rfl) ?_
    refine .head (.store (i := 1) (h := h2) (seen := []) rfl) ?_
    refine .head (.number (i := 0) (h := h1) rfl) ?_
    exact .single (.number (i := 1) (h := h2) rfl)
  · simp [bridge, Ne.symm hne]

end

end Verif.Call
