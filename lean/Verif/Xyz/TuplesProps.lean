import Verif.Xyz.TuplesModel
import Mathlib.Data.List.Range
/-!
# C28: tuples, C71: duplex numbers, C72: optional values
-/
namespace Verif.Xyz

/-! ## C28 -/

/-- The values inside, from left to right. -/
def Tup.leaves {V : Type} : Tup V → List V
  | .leaf v => [v]
  | .pair x y => x.leaves ++ y.leaves
  | .trio x y z => x.leaves ++ y.leaves ++ z.leaves
  | .quad x y z w => x.leaves ++ y.leaves ++ z.leaves ++ w.leaves

/-- C28: tuples of tuples, of any nesting, come back from their JSON if the values inside do. -/
theorem tuple_round_trip {V : Type} (enc : V → J) (dec : J → Option V) (t : Tup V)
    (h : ∀ v ∈ t.leaves, dec (enc v) = some v) : unmarshalTup dec t.shape (t.marshal enc) = some t := by
  induction t with
  | leaf v => simp [Tup.shape, Tup.marshal, unmarshalTup, h v (by simp [Tup.leaves])]
  | pair x y ihx ihy =>
    have hx := ihx (fun v hv => h v (by simp [Tup.leaves, hv]))
    have hy := ihy (fun v hv => h v (by simp [Tup.leaves, hv]))
    simp only [Tup.shape, Tup.marshal, unmarshalTup, rawArray]
    have : (List.range 2).map (fun i => [x.marshal enc, y.marshal enc][i]?) =
        [some (x.marshal enc), some (y.marshal enc)] := rfl
    rw [this]
    simp only [hx, hy]
  | trio x y z ihx ihy ihz =>
    have hx := ihx (fun v hv => h v (by simp [Tup.leaves, hv]))
    have hy := ihy (fun v hv => h v (by simp [Tup.leaves, hv]))
    have hz := ihz (fun v hv => h v (by simp [Tup.leaves, hv]))
    simp only [Tup.shape, Tup.marshal, unmarshalTup, rawArray]
    have : (List.range 3).map (fun i => [x.marshal enc, y.marshal enc, z.marshal enc][i]?) =
        [some (x.marshal enc), some (y.marshal enc), some (z.marshal enc)] := rfl
    rw [this]
    simp only [hx, hy, hz]
  | quad x y z w ihx ihy ihz ihw =>
    have hx := ihx (fun v hv => h v (by simp [Tup.leaves, hv]))
    have hy := ihy (fun v hv => h v (by simp [Tup.leaves, hv]))
    have hz := ihz (fun v hv => h v (by simp [Tup.leaves, hv]))
    have hw := ihw (fun v hv => h v (by simp [Tup.leaves, hv]))
    simp only [Tup.shape, Tup.marshal, unmarshalTup, rawArray]
    have : (List.range 4).map (fun i => [x.marshal enc, y.marshal enc, z.marshal enc, w.marshal enc][i]?) =
        [some (x.marshal enc), some (y.marshal enc), some (z.marshal enc), some (w.marshal enc)] := rfl
    rw [this]
    simp only [hx, hy, hz, hw]

/-- The components of a pair, trio or quad are the elements of its JSON array, in order. -/
theorem tuple_components {V : Type} (enc : V → J) (x y z w : Tup V) :
    (Tup.pair x y).marshal enc = .arr [x.marshal enc, y.marshal enc] ∧
    (Tup.trio x y z).marshal enc = .arr [x.marshal enc, y.marshal enc, z.marshal enc] ∧
    (Tup.quad x y z w).marshal enc = .arr [x.marshal enc, y.marshal enc, z.marshal enc, w.marshal enc] :=
  ⟨rfl, rfl, rfl⟩

/-- An array that is too short for the tuple is refused, and so is anything but an array. -/
theorem tuple_short_refused {V : Type} (dec : J → Option V) (a b c d : Shape) (l : List J) :
    (l.length < 2 → unmarshalTup dec (.pair a b) (.arr l) = none) ∧
    (l.length < 3 → unmarshalTup dec (.trio a b c) (.arr l) = none) ∧
    (l.length < 4 → unmarshalTup dec (.quad a b c d) (.arr l) = none) ∧
    unmarshalTup dec (.pair a b) .null = none ∧ ∀ fs, unmarshalTup dec (.pair a b) (.obj fs) = none := by
  refine ⟨fun h => ?_, fun h => ?_, fun h => ?_, rfl, fun _ => rfl⟩
  · have : (List.range 2).map (fun i => l[i]?) = [l[0]?, l[1]?] := rfl
    simp only [unmarshalTup, rawArray, this]
    rw [List.getElem?_eq_none (by omega : l.length ≤ 1)]
    cases l[0]? <;> rfl
  · have : (List.range 3).map (fun i => l[i]?) = [l[0]?, l[1]?, l[2]?] := rfl
    simp only [unmarshalTup, rawArray, this]
    rw [List.getElem?_eq_none (by omega : l.length ≤ 2)]
    cases l[0]? <;> cases l[1]? <;> rfl
  · have : (List.range 4).map (fun i => l[i]?) = [l[0]?, l[1]?, l[2]?, l[3]?] := rfl
    simp only [unmarshalTup, rawArray, this]
    rw [List.getElem?_eq_none (by omega : l.length ≤ 3)]
    cases l[0]? <;> cases l[1]? <;> cases l[2]? <;> rfl

/-- But one that is too long is not: the rest is dropped without an error. -/
theorem tuple_long_accepted {V : Type} (dec : J → Option V) (a b : Shape) (x y : J) (rest : List J) :
    unmarshalTup dec (.pair a b) (.arr (x :: y :: rest)) = unmarshalTup dec (.pair a b) (.arr [x, y]) := rfl

theorem push_leaves {V : Type} (t : Tup V) : ∀ acc, t.push acc = acc ++ t.leaves := by
  induction t with
  | leaf v => intro acc; rfl
  | pair x y ihx ihy => intro acc; simp [Tup.push, Tup.leaves, ihx, ihy]
  | trio x y z ihx ihy ihz => intro acc; simp [Tup.push, Tup.leaves, ihx, ihy, ihz]
  | quad x y z w ihx ihy ihz ihw => intro acc; simp [Tup.push, Tup.leaves, ihx, ihy, ihz, ihw]

/-- C28: as arguments of a format, nested tuples are their values from left to right, each once. -/
theorem expand_leaves {V : Type} (t : Tup V) : expand t = t.leaves := by
  unfold expand; rw [push_leaves]; rfl

/-- Numbers as values. -/
def numDec : J → Option Int
  | .num n => some n
  | _ => none

/-- A pair of a number and a trio. -/
example : unmarshalTup numDec (Tup.pair (.leaf 1) (.trio (.leaf 2) (.leaf 3) (.leaf (4 : Int)))).shape
    ((Tup.pair (.leaf 1) (.trio (.leaf 2) (.leaf 3) (.leaf 4))).marshal .num) =
    some (.pair (.leaf 1) (.trio (.leaf 2) (.leaf 3) (.leaf 4))) :=
  tuple_round_trip .num numDec _ (fun _ _ => rfl)

/-! ## C71 -/

/-- One of the numbers `a ± b ± c …`: a sign for each but the first. -/
def signed {T : Type} (add sub : T → T → T) (a : T) : List (T × Bool) → T
  | [] => a
  | (b, plus) :: rest => signed add sub (if plus then add a b else sub a b) rest

/-- All choices of `n` signs, plus before minus, the first sign the slowest. -/
def signChoices : Nat → List (List Bool)
  | 0 => [[]]
  | n + 1 => (signChoices n).map (true :: ·) ++ (signChoices n).map (false :: ·)

theorem branch_eq {T : Type} (add sub : T → T → T) : ∀ (ds : List T) (val : T) (acc : List T),
    branch add sub ds val acc = acc ++ (signChoices ds.length).map (fun s => signed add sub val (ds.zip s))
  | [], val, acc => rfl
  | d :: ds, val, acc => by
    rw [branch, branch_eq add sub ds, branch_eq add sub ds]
    simp [signChoices, List.map_append, List.map_map, Function.comp_def, signed]

theorem signChoices_length (n : Nat) : (signChoices n).length = 2 ^ n := by
  induction n with
  | zero => rfl
  | succ n ih => simp [signChoices, ih]; omega

theorem mem_signChoices (n : Nat) : ∀ (s : List Bool), s ∈ signChoices n ↔ s.length = n := by
  induction n with
  | zero => intro s; simp [signChoices]
  | succ n ih =>
    intro s
    cases s with
    | nil => simp [signChoices]
    | cons b s =>
      cases b <;> simp [signChoices, ih]

/-- C71: a duplex number stands for every choice of signs, in the documented order, exactly
`2^(n-1)` values for `n` terms. -/
theorem duplex_values {T : Type} (add sub : T → T → T) (a : T) (ds : List T) :
    ∃ vs, duplexValues add sub (a :: ds) = some vs ∧ vs.length = 2 ^ ds.length ∧
      vs = (signChoices ds.length).map (fun s => signed add sub a (ds.zip s)) ∧
      ∀ x, x ∈ vs ↔ ∃ s : List Bool, s.length = ds.length ∧ x = signed add sub a (ds.zip s) := by
  refine ⟨_, rfl, ?_, ?_, ?_⟩
  · rw [branch_eq]; simp [signChoices_length]
  · rw [branch_eq]; rfl
  · intro x
    rw [branch_eq]
    simp only [List.nil_append, List.mem_map, mem_signChoices]
    constructor
    · rintro ⟨s, h1, h2⟩; exact ⟨s, h1, h2.symm⟩
    · rintro ⟨s, h1, h2⟩; exact ⟨s, h1, h2.symm⟩

/-- `a ± b ± c`, as documented. -/
example : duplexValues (· + ·) (· - ·) [(10 : Int), 3, 1] = some [14, 12, 8, 6] := rfl

/-- The empty number panics. -/
theorem duplex_empty_panics {T : Type} (add sub : T → T → T) : duplexValues add sub [] = none := rfl

/-! ## C72 -/

/-- C72 in full: whatever JSON is read into a variable, no other changes. -/
def MaybeApartClaim : Prop :=
  ∀ (T : Type) (dec : J → Option T) (h : Heap T) (o other : MaybeRef) (j : J),
    maybeGet (maybeUnmarshal dec h o j).1 other = maybeGet h other

/-- C72: what was included is written as itself and read back, into an empty variable or one of
its own. -/
theorem maybe_round_trip {T : Type} (enc : T → J) (dec : J → Option T) (h h' : Heap T) (v : T)
    (o : MaybeRef) (hj : (enc v).isNull = false) (hf : dec (enc v) = some v) :
    maybeMarshal enc (maybeNew h v).1 (maybeNew h v).2 = enc v ∧
    (let r := maybeUnmarshal dec h' o (enc v)
     maybeGet r.1 r.2.1 = some v ∧ r.2.2 = true) := by
  constructor
  · simp [maybeMarshal, maybeGet, maybeNew]
  · simp only [maybeUnmarshal, hj, Bool.false_eq_true, if_false, hf]
    cases o with
    | none => simp [maybeNew, maybeGet]
    | some a => simp [Heap.set, maybeGet]

/-- An omitted value is null, and null omits the value. -/
theorem maybe_null {T : Type} (enc : T → J) (dec : J → Option T) (h : Heap T) (o : MaybeRef) :
    maybeMarshal enc h none = .null ∧
    (let r := maybeUnmarshal dec h o .null
     maybeGet r.1 r.2.1 = none ∧ r.2.2 = true) := by
  refine ⟨rfl, ?_⟩
  simp only [maybeUnmarshal, J.isNull, if_true]
  cases o with
  | none => exact ⟨rfl, rfl⟩
  | some a => simp [Heap.set, maybeGet]

/-- An error leaves the variable as it was. -/
theorem maybe_error_keeps {T : Type} (dec : J → Option T) (h : Heap T) (o : MaybeRef) (j : J)
    (he : (maybeUnmarshal dec h o j).2.2 = false) :
    maybeUnmarshal dec h o j = (h, o, false) := by
  unfold maybeUnmarshal at he ⊢
  split
  · next hn => rw [if_pos hn] at he; cases o <;> cases he
  · next hn =>
    rw [if_neg hn] at he
    cases hd : dec j with
    | none => rfl
    | some v => rw [hd] at he; cases o <;> cases he

/-- C72: other variables are not changed, if they do not refer to the same map and were made
before. -/
theorem maybe_apart_partial {T : Type} (dec : J → Option T) (h : Heap T) (o other : MaybeRef) (j : J)
    (hne : ∀ a, o = some a → other ≠ some a) (hold : ∀ a, other = some a → a < h.next) :
    maybeGet (maybeUnmarshal dec h o j).1 other = maybeGet h other := by
  cases other with
  | none => rfl
  | some b =>
    have hb := hold b rfl
    unfold maybeUnmarshal
    split
    · cases o with
      | none => rfl
      | some a =>
        have : b ≠ a := by intro e; exact hne a rfl (by rw [e])
        simp [Heap.set, maybeGet, this]
    · cases hd : dec j with
      | none => rfl
      | some v =>
        cases o with
        | none => simp [maybeNew, maybeGet]; omega
        | some a =>
          have : b ≠ a := by intro e; exact hne a rfl (by rw [e])
          simp [Heap.set, maybeGet, this]

/-- It fails for copies: a copy refers to the same map, so reading JSON into the copy changes
the original. -/
theorem maybe_apart_fails : ¬ MaybeApartClaim := by
  intro h
  have := h Int numDec (maybeNew ⟨fun _ => none, 0⟩ 1).1 (some 0) (some 0) (.num 2)
  revert this
  simp [maybeUnmarshal, J.isNull, numDec, Heap.set, maybeNew, maybeGet]

/-- And a value that is itself written as null comes back omitted. -/
theorem maybe_null_value {T : Type} (enc : T → J) (dec : J → Option T) (h h' : Heap T) (v : T)
    (hj : enc v = .null) :
    maybeGet (maybeUnmarshal dec h' none (maybeMarshal enc (maybeNew h v).1 (maybeNew h v).2)).1
      (maybeUnmarshal dec h' none (maybeMarshal enc (maybeNew h v).1 (maybeNew h v).2)).2.1 = none := by
  have : maybeMarshal enc (maybeNew h v).1 (maybeNew h v).2 = .null := by
    simp [maybeMarshal, maybeGet, maybeNew, hj]
  rw [this]
  rfl

/-- A number into an empty variable. -/
example : maybeGet (maybeUnmarshal numDec ⟨fun _ => none, 0⟩ none (.num 3)).1
    (maybeUnmarshal numDec ⟨fun _ => none, 0⟩ none (.num 3)).2.1 = some 3 :=
  (maybe_round_trip .num numDec ⟨fun _ => none, 0⟩ ⟨fun _ => none, 0⟩ 3 none rfl rfl).2.1

/-- Two variables with maps of their own. -/
example : maybeGet (maybeUnmarshal numDec (maybeNew (maybeNew ⟨fun _ => none, 0⟩ 1).1 2).1 (some 0) (.num 9)).1 (some 1) =
    some 2 :=
  maybe_apart_partial numDec (maybeNew (maybeNew ⟨fun _ => none, 0⟩ 1).1 2).1 (some 0) (some 1) (.num 9)
    (by intro a h; injection h with h; subst h; simp) (by intro a h; injection h with h; subst h; decide)

end Verif.Xyz
