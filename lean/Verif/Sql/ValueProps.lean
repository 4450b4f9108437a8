import Verif.Sql.ValueSpec
import Verif.Jrpc.Props
/-!
# Values of databases print what they are (C234)
-/
namespace Verif.Sql.Value
open Verif.Jrpc (Digits digitsVal Base64 appendUint appendInt appendUint_spec)
open Spec

/-! ## Numbers -/

theorem decimal_written (n : Int) : Decimal n (appendInt n) := by
  obtain ⟨h1, h2, h3⟩ := appendUint_spec n.natAbs
  unfold appendInt
  by_cases hn : n < 0
  · rw [if_pos hn]
    exact ⟨_, h1, h3, Or.inr ⟨rfl, by rw [h2]; omega, by omega⟩⟩
  · rw [if_neg hn]
    exact ⟨_, h1, h3, Or.inl ⟨rfl, by rw [h2]; omega⟩⟩

theorem decimal_unique {i j : Int} {s : Bytes} (h : Decimal i s) (g : Decimal j s) : i = j := by
  obtain ⟨ds, ⟨hd, hr⟩, _, h⟩ := h
  obtain ⟨es, ⟨gd, gr⟩, _, g⟩ := g
  have nosign : ∀ l : Bytes, (∀ d ∈ l, 48 ≤ d.toNat ∧ d.toNat ≤ 57) → ∀ m : Bytes, l ≠ 45 :: m := by
    intro l hl m he
    have := hl 45 (by rw [he]; simp)
    rw [show (45 : UInt8).toNat = 45 from rfl] at this
    omega
  rcases h with ⟨h1, h2⟩ | ⟨h1, h2, _⟩ <;> rcases g with ⟨g1, g2⟩ | ⟨g1, g2, _⟩
  · rw [← h2, ← g2, ← h1, ← g1]
  · exact absurd (h1.symm.trans g1) (nosign ds hr es)
  · exact absurd (g1.symm.trans h1) (nosign es gr ds)
  · rw [h1] at g1; injection g1 with _ g1; rw [← h2, ← g2, g1]

theorem digitsVal_append (a b : Bytes) : digitsVal (a ++ b) = digitsVal a * 10 ^ b.length + digitsVal b := by
  unfold digitsVal
  rw [List.foldl_append]
  generalize List.foldl (fun n (d : UInt8) => n * 10 + (d.toNat - 48)) 0 a = x
  have : ∀ (x y : Nat), List.foldl (fun n (d : UInt8) => n * 10 + (d.toNat - 48)) (x + y) b =
      x * 10 ^ b.length + List.foldl (fun n (d : UInt8) => n * 10 + (d.toNat - 48)) y b := by
    induction b with
    | nil => intro x y; simp
    | cons d b ih =>
      intro x y
      simp only [List.foldl_cons, List.length_cons]
      rw [show (x + y) * 10 + (d.toNat - 48) = x * 10 + (y * 10 + (d.toNat - 48)) by omega, ih, Nat.pow_succ, Nat.mul_assoc,
        Nat.mul_comm 10]
  simpa using this x 0

theorem digitsVal_zeros (k : Nat) (s : Bytes) : digitsVal (List.replicate k 48 ++ s) = digitsVal s := by
  induction k with
  | zero => rfl
  | succ k ih =>
    rw [List.replicate_succ]
    show List.foldl _ _ _ = _
    simp only [List.cons_append, List.foldl_cons]
    exact ih

theorem appendUint_length (k n : Nat) (h : n < 10 ^ (k + 1)) : (appendUint n).length ≤ k + 1 := by
  induction k generalizing n with
  | zero =>
    rw [appendUint, if_pos (by simpa using h)]
    simp
  | succ k ih =>
    rw [appendUint]
    split
    · simp
    · have := ih (n / 10) (by rw [Nat.pow_succ] at h; omega)
      simp only [List.length_append, List.length_cons, List.length_nil]
      omega

/-- A field of a time is written with its width. -/
theorem field_written (w n : Nat) (h : n < 10 ^ (w + 1)) : Field (w + 1) n (appendPadded n (w + 1)) := by
  obtain ⟨⟨h1, h1'⟩, h2, _⟩ := appendUint_spec n
  have hl := appendUint_length w n h
  have hp : appendPadded n (w + 1) = List.replicate (w + 1 - (appendUint n).length) 48 ++ appendUint n := by
    unfold appendPadded
    rw [if_neg (by omega)]
    rfl
  rw [hp]
  refine ⟨?_, ⟨?_, ?_⟩, ?_⟩
  · rw [List.length_append, List.length_replicate]; omega
  · intro he
    exact h1 (List.append_eq_nil_iff.mp he).2
  · intro d hd
    rcases List.mem_append.mp hd with hd | hd
    · rw [(List.mem_replicate.mp hd).2]; decide
    · exact h1' d hd
  · rw [digitsVal_zeros, h2]

theorem zone_written (o : Int) (h1 : -86400 < o) (h2 : o < 86400) (h : o % 60 = 0) : Zone o (formatZone o) := by
  unfold formatZone
  by_cases ho : o = 0
  · rw [if_pos ho]
    exact Or.inl ⟨rfl, ho⟩
  rw [if_neg ho]
  obtain ⟨q, hq⟩ : ∃ q : Int, o = 60 * q := ⟨o / 60, by omega⟩
  have ht : o.tdiv 60 = q := by rw [hq]; exact Int.mul_tdiv_cancel_left q (by decide)
  rw [ht]
  refine Or.inr ⟨if q < 0 then 45 else 43, _, _, q.natAbs / 60, q.natAbs % 60, ?_, field_written 1 _ (by omega),
    field_written 1 _ (by omega), by omega, ?_⟩
  · by_cases hn : q < 0
    · rw [if_pos hn, if_pos hn]; simp
    · rw [if_neg hn, if_neg hn]; simp
  · by_cases hn : q < 0
    · rw [if_pos hn]
      exact Or.inr ⟨rfl, by omega⟩
    · rw [if_neg hn]
      exact Or.inl ⟨rfl, by omega⟩

theorem time_written (t : Time) (h : Writable t) (hn : t.nano = 0) : Rfc3339 t (formatTime t) := by
  obtain ⟨⟨a1, a2, a3, a4, a5, a6, a7, _, a8, a9⟩, b1, b2, b3⟩ := h
  obtain ⟨y, hy⟩ : ∃ y : Nat, t.year = y := ⟨t.year.toNat, by omega⟩
  refine ⟨y, appendPadded y 4, appendPadded t.month 2, appendPadded t.day 2, appendPadded t.hour 2, appendPadded t.minute 2,
    appendPadded t.second 2, [], formatZone t.offset, ?_, field_written 3 y (by omega), hy.symm, field_written 1 _ (by omega),
    field_written 1 _ (by omega), field_written 1 _ (by omega), field_written 1 _ (by omega), field_written 1 _ (by omega),
    Or.inl ⟨rfl, hn⟩, zone_written _ a8 a9 b3⟩
  unfold formatTime
  rw [hy]
  simp

/-! ## The text says one value -/

theorem digits_split {a b x y : Bytes} (ha : ∀ d ∈ a, 48 ≤ d.toNat ∧ d.toNat ≤ 57) (hb : ∀ d ∈ b, 48 ≤ d.toNat ∧ d.toNat ≤ 57)
    (hx : ∀ d, x.head? = some d → ¬ (48 ≤ d.toNat ∧ d.toNat ≤ 57)) (hy : ∀ d, y.head? = some d → ¬ (48 ≤ d.toNat ∧ d.toNat ≤ 57))
    (h : a ++ x = b ++ y) : a = b ∧ x = y := by
  induction a generalizing b with
  | nil =>
    cases b with
    | nil => exact ⟨rfl, h⟩
    | cons d b =>
      rw [List.nil_append, List.cons_append] at h
      exact absurd (hb d (by simp)) (hx d (by rw [h]; rfl))
  | cons c a ih =>
    cases b with
    | nil =>
      rw [List.nil_append, List.cons_append] at h
      exact absurd (ha c (by simp)) (hy c (by rw [← h]; rfl))
    | cons d b =>
      injection h with h1 h2
      obtain ⟨q1, q2⟩ := ih (fun d hd => ha d (by simp [hd])) (fun d hd => hb d (by simp [hd])) h2
      exact ⟨by rw [h1, q1], q2⟩

theorem zone_head {o : Int} {s : Bytes} (h : Zone o s) :
    ∃ c t, s = c :: t ∧ ¬ (48 ≤ c.toNat ∧ c.toNat ≤ 57) ∧ c ≠ 46 := by
  rcases h with ⟨h, _⟩ | ⟨sign, hh, mm, h, m, he, _, _, _, hs⟩
  · exact ⟨90, [], h, by decide, by decide⟩
  · refine ⟨sign, hh ++ 58 :: mm, he, ?_, ?_⟩ <;> rcases hs with ⟨hs, _⟩ | ⟨hs, _⟩ <;> rw [hs] <;> decide

theorem zone_unique {o p : Int} {s : Bytes} (h : Zone o s) (g : Zone p s) : o = p := by
  rcases h with ⟨h1, h2⟩ | ⟨sign, hh, mm, h, m, he, ⟨f1, _, f3⟩, ⟨_, _, f4⟩, _, hs⟩ <;>
    rcases g with ⟨g1, g2⟩ | ⟨sign', hh', mm', h', m', ge, ⟨e1, _, e3⟩, ⟨_, _, e4⟩, _, gs⟩
  · rw [h2, g2]
  · rw [h1] at ge; injection ge with ge _
    rcases gs with ⟨gs, _⟩ | ⟨gs, _⟩ <;> rw [gs] at ge <;> exact absurd ge (by decide)
  · rw [g1] at he; injection he with he _
    rcases hs with ⟨hs, _⟩ | ⟨hs, _⟩ <;> rw [hs] at he <;> exact absurd he (by decide)
  · rw [he] at ge
    injection ge with q1 q2
    obtain ⟨q3, q4⟩ := List.append_inj q2 (by rw [f1, e1])
    injection q4 with _ q4
    subst q3; subst q4
    have hhh : h = h' := by rw [← f3, ← e3]
    have hmm : m = m' := by rw [← f4, ← e4]
    rcases hs with ⟨hs, ho⟩ | ⟨hs, ho⟩ <;> rcases gs with ⟨gs, go⟩ | ⟨gs, go⟩
    · rw [ho, go, hhh, hmm]
    · rw [hs, gs] at q1; exact absurd q1 (by decide)
    · rw [hs, gs] at q1; exact absurd q1 (by decide)
    · rw [ho, go, hhh, hmm]

theorem fraction_unique {n m : Nat} {f f' z z' : Bytes} {o o' : Int} (h : Fraction n f) (g : Fraction m f') (hz : Zone o z)
    (gz : Zone o' z') (he : f ++ z = f' ++ z') : n = m ∧ z = z' := by
  obtain ⟨c, t, hc, hc1, hc2⟩ := zone_head hz
  obtain ⟨c', t', hc', hc1', hc2'⟩ := zone_head gz
  rcases h with ⟨h1, h2⟩ | ⟨ds, h1, ⟨_, h2⟩, h3, h4⟩ <;> rcases g with ⟨g1, g2⟩ | ⟨es, g1, ⟨_, g2⟩, g3, g4⟩
  · rw [h1, g1] at he
    exact ⟨by rw [h2, g2], he⟩
  · rw [h1, g1, hc] at he
    injection he with he _
    exact absurd he hc2
  · rw [h1, g1, hc'] at he
    injection he with he _
    exact absurd he.symm hc2'
  · rw [h1, g1] at he
    injection he with _ he
    obtain ⟨q1, q2⟩ := digits_split h2 g2 (by rw [hc]; intro d hd; injection hd with hd; rw [← hd]; exact hc1)
      (by rw [hc']; intro d hd; injection hd with hd; rw [← hd]; exact hc1') he
    subst q1
    exact ⟨by rw [← h4, ← g4], q2⟩

theorem time_unique {t u : Time} {s : Bytes} (h : Rfc3339 t s) (g : Rfc3339 u s) : t = u := by
  obtain ⟨y, sy, smo, sd, sh, smi, ss, sf, sz, he, ⟨a1, _, a2⟩, a3, ⟨b1, _, b2⟩, ⟨c1, _, c2⟩, ⟨d1, _, d2⟩, ⟨e1, _, e2⟩, ⟨f1, _, f2⟩,
    hf, hz⟩ := h
  obtain ⟨y', sy', smo', sd', sh', smi', ss', sf', sz', he', ⟨a1', _, a2'⟩, a3', ⟨b1', _, b2'⟩, ⟨c1', _, c2'⟩, ⟨d1', _, d2'⟩,
    ⟨e1', _, e2'⟩, ⟨f1', _, f2'⟩, hf', hz'⟩ := g
  rw [he] at he'
  obtain ⟨q1, r⟩ := List.append_inj he' (by rw [a1, a1'])
  injection r with _ r
  obtain ⟨q2, r⟩ := List.append_inj r (by rw [b1, b1'])
  injection r with _ r
  obtain ⟨q3, r⟩ := List.append_inj r (by rw [c1, c1'])
  injection r with _ r
  obtain ⟨q4, r⟩ := List.append_inj r (by rw [d1, d1'])
  injection r with _ r
  obtain ⟨q5, r⟩ := List.append_inj r (by rw [e1, e1'])
  injection r with _ r
  obtain ⟨q6, r⟩ := List.append_inj r (by rw [f1, f1'])
  obtain ⟨q7, q8⟩ := fraction_unique hf hf' hz hz' r
  subst q8
  have q9 := zone_unique hz hz'
  have w1 : t.year = u.year := by rw [← a3, ← a3', ← a2, ← a2', q1]
  have w2 : t.month = u.month := by rw [← b2, ← b2', q2]
  have w3 : t.day = u.day := by rw [← c2, ← c2', q3]
  have w4 : t.hour = u.hour := by rw [← d2, ← d2', q4]
  have w5 : t.minute = u.minute := by rw [← e2, ← e2', q5]
  have w6 : t.second = u.second := by rw [← f2, ← f2', q6]
  obtain ⟨x1, x2, x3, x4, x5, x6, x7, x8⟩ := t
  obtain ⟨z1, z2, z3, z4, z5, z6, z7, z8⟩ := u
  simp only at w1 w2 w3 w4 w5 w6 q7 q9
  subst w1; subst w2; subst w3; subst w4; subst w5; subst w6; subst q7; subst q9
  rfl

/-- What a text says is unambiguous, given the type. -/
theorem says_unique {v w : Val} {s : Bytes} (h : Says v s) (g : Says w s) (ht : SameType v w) : v = w := by
  cases h with
  | true => cases g with
    | true => rfl
    | _ => exact ht.elim
  | false => cases g with
    | false => rfl
    | _ => exact ht.elim
  | int b n _ h => cases g with
    | int b' m _ g =>
      have hb : b = b' := ht
      rw [hb, decimal_unique h g]
    | _ => exact ht.elim
  | uint b n _ h => cases g with
    | uint b' m _ g =>
      have hb : b = b' := ht
      have := decimal_unique h g
      rw [hb, show n = m by omega]
    | _ => exact ht.elim
  | string _ => cases g with
    | string _ => rfl
    | _ => exact ht.elim
  | bytes b _ h => cases g with
    | bytes b' _ g => rw [Jrpc.base64_unambiguous h g]
    | _ => exact ht.elim
  | time t _ h => cases g with
    | time u _ g => rw [time_unique h g]
    | _ => exact ht.elim

/-! ## The claims -/

/-- A value that the text can say: not a float, and of times, those with whole seconds that RFC 3339 has a text for. -/
def Plain : Val → Prop
  | .none => False
  | .float32 _ => False
  | .float64 _ => False
  | .time t => Writable t ∧ t.nano = 0
  | _ => True

/-- **C234** (partial): the string of a value says the value: `true` or `false`, the number in decimal, the string itself, the
base64 of the bytes, the date and time by RFC 3339. (Missing: floats, and times that are not in whole seconds, for which it is
false, `time_text_fails`, or in years or zones that RFC 3339 has no text for, `time_zone_fails`.) -/
theorem string_says_partial (f32 : BitVec 32 → Bytes) (f64 : BitVec 64 → Bytes) (v : Val) (h : Plain v) :
    Says v (render f32 f64 v) := by
  cases v with
  | none => exact h.elim
  | bool b => cases b; exact .false; exact .true
  | int b n => exact .int b n _ (decimal_written n)
  | uint b n =>
    refine .uint b n _ ?_
    have := decimal_written (n : Int)
    unfold appendInt at this
    rw [if_neg (by omega)] at this
    exact this
  | float32 b => exact h.elim
  | float64 b => exact h.elim
  | string s => exact .string s
  | bytes b => exact .bytes b _ (Jrpc.quanta_ok b)
  | time t => exact .time t _ (time_written t h.1 h.2)

/-- **C234** (partial): so values of the same type with the same string are the same. -/
theorem string_tells_apart_partial (f32 : BitVec 32 → Bytes) (f64 : BitVec 64 → Bytes) (v w : Val) (hv : Plain v) (hw : Plain w)
    (ht : SameType v w) (h : render f32 f64 v = render f32 f64 w) : v = w :=
  says_unique (string_says_partial f32 f64 v hv) (h ▸ string_says_partial f32 f64 w hw) ht

/-- Any times that have a text are the same up to their nanoseconds if their strings are. -/
theorem times_same_second (f32 : BitVec 32 → Bytes) (f64 : BitVec 64 → Bytes) (t u : Time) (ht : Writable t) (hu : Writable u)
    (h : render f32 f64 (.time t) = render f32 f64 (.time u)) : { t with nano := 0 } = { u with nano := 0 } := by
  have clear : ∀ x : Time, Writable x → Plain (.time { x with nano := 0 }) := by
    intro x ⟨⟨a1, a2, a3, a4, a5, a6, a7, _, a8⟩, hr⟩
    exact ⟨⟨⟨a1, a2, a3, a4, a5, a6, a7, Nat.pow_pos (by decide), a8⟩, hr⟩, rfl⟩
  have := string_tells_apart_partial f32 f64 (.time { t with nano := 0 }) (.time { u with nano := 0 }) (clear t ht) (clear u hu)
    trivial h
  injection this

theorem first_day (y : Int) (m d : Nat) (m1 : 1 ≤ m) (m2 : m ≤ 12) (d1 : 1 ≤ d) (d2 : d ≤ 31) :
    (daysTo y m d = 0 ↔ y = 1 ∧ m = 1 ∧ d = 1) ∧ (daysTo y m d = -1 ↔ y = 0 ∧ m = 12 ∧ d = 31) := by
  unfold daysTo
  rw [Int.fdiv_eq_ediv_of_nonneg _ (by decide), Int.fdiv_eq_ediv_of_nonneg _ (by decide), Int.fdiv_eq_ediv_of_nonneg _ (by decide),
    Int.fmod_eq_emod_of_nonneg _ (by decide), Int.fmod_eq_emod_of_nonneg _ (by decide), Int.fmod_eq_emod_of_nonneg _ (by decide)]
  have hm : m = 1 ∨ m = 2 ∨ m = 3 ∨ m = 4 ∨ m = 5 ∨ m = 6 ∨ m = 7 ∨ m = 8 ∨ m = 9 ∨ m = 10 ∨ m = 11 ∨ m = 12 := by omega
  rcases hm with rfl | rfl | rfl | rfl | rfl | rfl | rfl | rfl | rfl | rfl | rfl | rfl <;>
    (simp; try split) <;> (refine ⟨?_, ?_⟩) <;> omega

/-- **C234**: `IsZero` holds of exactly the zero values of the types: for times in any zone, of the moment
0001-01-01T00:00:00Z; for floats, of both zeros. -/
theorem zero_iff (v : Val) (h : ∀ t, v = .time t → Valid t) : isZero v = true ↔ ZeroValue v := by
  cases v with
  | none => exact ⟨(nomatch ·), False.elim⟩
  | bool b => simp [isZero, ZeroValue]
  | int b n => simp [isZero, ZeroValue]
  | uint b n => simp [isZero, ZeroValue]
  | float32 b =>
    have hb := b.isLt
    simp only [isZero, ZeroValue, Bool.or_eq_true, beq_iff_eq]
    rw [← BitVec.toNat_inj, ← BitVec.toNat_inj]
    simp only [BitVec.toNat_ofNat]
    omega
  | float64 b =>
    have hb := b.isLt
    simp only [isZero, ZeroValue, Bool.or_eq_true, beq_iff_eq]
    rw [← BitVec.toNat_inj, ← BitVec.toNat_inj]
    simp only [BitVec.toNat_ofNat]
    omega
  | string s => simp [isZero, ZeroValue]
  | bytes b => simp [isZero, ZeroValue]
  | time t =>
    obtain ⟨a1, a2, a3, a4, a5, a6, a7, _, a8, a9⟩ := h t rfl
    obtain ⟨q0, q1⟩ := first_day t.year t.month t.day a1 a2 a3 a4
    simp only [isZero, ZeroValue, FirstMoment, Bool.and_eq_true, beq_iff_eq, Time.sec]
    generalize daysTo t.year t.month t.day = D at q0 q1
    constructor
    · rintro ⟨hs, hn⟩
      refine ⟨hn, ?_⟩
      by_cases ho : 0 ≤ t.offset
      · have : D = 0 := by omega
        obtain ⟨w1, w2, w3⟩ := q0.mp this
        exact Or.inl ⟨ho, w1, w2, w3, by omega⟩
      · have : D = -1 := by omega
        obtain ⟨w1, w2, w3⟩ := q1.mp this
        exact Or.inr ⟨by omega, w1, w2, w3, by omega⟩
    · rintro ⟨hn, ⟨ho, w1, w2, w3, hs⟩ | ⟨ho, w1, w2, w3, hs⟩⟩
      · have := q0.mpr ⟨w1, w2, w3⟩
        exact ⟨by omega, hn⟩
      · have := q1.mpr ⟨w1, w2, w3⟩
        exact ⟨by omega, hn⟩

/-! ## Examples, and what is false -/

/-- A time: 18 November 2026, 18:30:00, an hour ahead of UTC. -/
def someTime : Time := { year := 2026, month := 11, day := 18, hour := 18, minute := 30, second := 0, nano := 0, offset := 3600 }

/-- It is written as RFC 3339 has it. -/
example : Says (.time someTime) (render (fun _ => []) (fun _ => []) (.time someTime)) ∧
    render (fun _ => []) (fun _ => []) (.time someTime) = "2026-11-18T18:30:00+01:00".toUTF8.toList := by
  refine ⟨string_says_partial _ _ (.time someTime) ⟨⟨by unfold Valid; decide, by decide, by decide, by decide⟩, rfl⟩, by decide +kernel⟩

/-- Numbers. -/
example : Says (.int 64 (-120)) [45, 49, 50, 48] := by
  have := string_says_partial (fun _ => []) (fun _ => []) (.int 64 (-120)) trivial
  rwa [show render (fun _ => []) (fun _ => []) (.int 64 (-120)) = [45, 49, 50, 48] by decide +kernel] at this

/-- Bytes. -/
example (b : Bytes) (h : Jrpc.quanta b = Jrpc.quanta [1, 2]) : b = [1, 2] := by
  have := string_tells_apart_partial (fun _ => []) (fun _ => []) (.bytes b) (.bytes [1, 2]) trivial trivial trivial h
  injection this

/-- The first moment, as it is said an hour behind UTC. -/
example : isZero (.time { year := 0, month := 12, day := 31, hour := 23, minute := 0, second := 0, nano := 0, offset := -3600 }) = true :=
  (zero_iff _ (fun t h => by injection h with h; subst h; exact ⟨by decide, by decide, by decide, by decide, by decide, by decide, by decide, by decide, by decide, by decide⟩)).mpr
    ⟨rfl, Or.inr ⟨by decide, rfl, rfl, rfl, by decide⟩⟩

/-- The claim in full, for times: values with the same string are the same. -/
def TimesTellApartClaim : Prop :=
  ∀ t u : Time, Valid t → Valid u → render (fun _ => []) (fun _ => []) (.time t) = render (fun _ => []) (fun _ => []) (.time u) → t = u

/-- Fractions of seconds are not written. -/
theorem time_text_fails : ¬ TimesTellApartClaim := by
  intro h
  have := h someTime { someTime with nano := 5 }
    ⟨by decide, by decide, by decide, by decide, by decide, by decide, by decide, by decide, by decide, by decide⟩
    ⟨by decide, by decide, by decide, by decide, by decide, by decide, by decide, by decide, by decide, by decide⟩ rfl
  exact absurd this (by decide)

/-- Nor are the seconds of an offset: a time that is 30 seconds ahead of UTC is written as if it were in UTC, and so is one that is
30 seconds behind. -/
theorem time_zone_fails :
    render (fun _ => []) (fun _ => []) (.time { someTime with offset := 30 }) =
      render (fun _ => []) (fun _ => []) (.time { someTime with offset := -30 }) ∧
    ¬ Says (.time { someTime with offset := 30 }) (render (fun _ => []) (fun _ => []) (.time { someTime with offset := 30 })) := by
  have e : ({ someTime with offset := 30 } : Time) ≠ { someTime with offset := 0 } := by decide
  refine ⟨by decide +kernel, ?_⟩
  intro h
  apply e
  have key : Rfc3339 { someTime with offset := 0 } (formatTime { someTime with offset := 30 }) := by
    refine ⟨2026, appendPadded 2026 4, appendPadded 11 2, appendPadded 18 2, appendPadded 18 2, appendPadded 30 2, appendPadded 0 2, [],
      [43] ++ appendPadded 0 2 ++ [58] ++ appendPadded 0 2, by decide +kernel, field_written 3 2026 (by decide), rfl,
      field_written 1 11 (by decide), field_written 1 18 (by decide), field_written 1 18 (by decide), field_written 1 30 (by decide),
      field_written 1 0 (by decide), Or.inl ⟨rfl, rfl⟩, Or.inr ⟨43, appendPadded 0 2, appendPadded 0 2, 0, 0, by simp,
        field_written 1 0 (by decide), field_written 1 0 (by decide), by decide, Or.inl ⟨rfl, rfl⟩⟩⟩
  cases h with
  | time _ _ h => exact time_unique h key

/-- A value of no case is not zero, although its string is empty. -/
theorem no_case_not_zero : isZero .none = false ∧ render (fun _ => []) (fun _ => []) .none = [] := ⟨rfl, rfl⟩

end Verif.Sql.Value
