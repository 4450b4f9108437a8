import Verif.Vm.CbSpec
import Mathlib.Data.List.Forall2
/-!
# C194, C195: Go functions given to C
-/
namespace Verif.Vm.Cb
open Spec

/-- The kinds of parameters that work. -/
def Good (k : Kind) : Prop :=
  k ∈ [Kind.int8, .int16, .int32, .int64, .uint32, .uint64, .float32, .float64, .string]

instance (k : Kind) : Decidable (Good k) := by unfold Good; infer_instance

theorem goString_reads {mem : Nat → BitVec 8} : ∀ (bs : List (BitVec 8)) (p fuel : Nat), Reads mem p bs → bs.length < fuel →
    goString mem p fuel = bs
  | [], p, fuel + 1, h, _ => by
    have := h.2
    simp only [List.length_nil, Nat.add_zero] at this
    rw [goString, if_pos this]
  | b :: bs, p, fuel + 1, h, hf => by
    have h0 := h.1 0 (by simp)
    simp only [Nat.add_zero, List.getElem_cons_zero] at h0
    rw [goString, if_neg (by rw [h0.1]; exact h0.2), h0.1]
    congr 1
    refine goString_reads bs (p + 1) fuel ⟨fun i hi => ?_, ?_⟩ (by simp only [List.length_cons] at hf; omega)
    · have := h.1 (i + 1) (by simp; omega)
      rw [List.getElem_cons_succ] at this
      rw [show p + 1 + i = p + (i + 1) by omega]; exact this
    · have := h.2
      rw [List.length_cons] at this
      rw [show p + 1 + bs.length = p + (bs.length + 1) by omega]; exact this

/-- Strings that C passes end within what is looked at. -/
def Ends (mem : Nat → BitVec 8) (fuel : Nat) (k : Kind) (w : W) : Prop :=
  k = .string → ∃ bs, Reads mem w.toNat bs ∧ bs.length < fuel

theorem reads_unique {mem : Nat → BitVec 8} {p : Nat} {a b : List (BitVec 8)} (ha : Reads mem p a) (hb : Reads mem p b) :
    a = b :=
  (goString_reads a p (a.length + b.length + 1) ha (by omega)).symm.trans
    (goString_reads b p (a.length + b.length + 1) hb (by omega))

theorem low_signExtend {n : Nat} (x : BitVec n) (h : n ≤ 64) : (x.signExtend 64).setWidth n = x := by
  ext i hi
  rw [BitVec.getElem_setWidth, BitVec.getLsbD_signExtend]
  simp [hi, BitVec.getLsbD_eq_getElem]
  omega

theorem argument_good (mem : Nat → BitVec 8) (fuel : Nat) (k : Kind) (hk : Good k) (w : W) (he : Ends mem fuel k w) :
    ∃ s v, sigRune k = some s ∧ argument mem fuel k s w = some v ∧ Means mem k w v := by
  simp only [Good, List.mem_cons, List.not_mem_nil, or_false] at hk
  rcases hk with rfl | rfl | rfl | rfl | rfl | rfl | rfl | rfl | rfl
  · refine ⟨_, _, rfl, rfl, _, rfl, ?_⟩
    rw [low_signExtend _ (by omega)]; simp
  · refine ⟨_, _, rfl, rfl, _, rfl, ?_⟩
    rw [low_signExtend _ (by omega)]; simp
  · refine ⟨_, _, rfl, rfl, _, rfl, ?_⟩
    rw [low_signExtend _ (by omega)]; simp
  · exact ⟨_, _, rfl, rfl, rfl⟩
  · refine ⟨_, _, rfl, rfl, _, rfl, ?_⟩
    simp
  · exact ⟨_, _, rfl, rfl, rfl⟩
  · refine ⟨_, _, rfl, rfl, _, rfl, ?_⟩
    simp
  · exact ⟨_, _, rfl, rfl, rfl⟩
  · refine ⟨_, _, rfl, rfl, fun bs hb => ?_⟩
    obtain ⟨bs', hb', hl⟩ := he rfl
    rw [goString_reads bs' _ _ hb' hl, reads_unique hb hb']

theorem arguments_good (mem : Nat → BitVec 8) (fuel : Nat) : ∀ (ks : List Kind) (ws : List W), (∀ k ∈ ks, Good k) →
    List.Forall₂ (Ends mem fuel) ks ws →
    ∃ ss vs, ks.mapM sigRune = some ss ∧ arguments mem fuel ks ss ws = some vs ∧ vs.length = ks.length ∧
      ∀ (i : Nat) k w v, ks[i]? = some k → ws[i]? = some w → vs[i]? = some v → Means mem k w v
  | [], ws, _, h => ⟨[], [], rfl, rfl, rfl, by simp⟩
  | k :: ks, w :: ws, hk, .cons he h => by
    obtain ⟨s, v, h1, h2, h3⟩ := argument_good mem fuel k (hk k (by simp)) w he
    obtain ⟨ss, vs, e1, e2, e3, e4⟩ := arguments_good mem fuel ks ws (fun k h => hk k (by simp [h])) h
    refine ⟨s :: ss, v :: vs, by simp [h1, e1], by simp [arguments, h2, e2], by simp [e3], fun i => ?_⟩
    cases i with
    | zero => intro k' w' v' a b c; simp at a b c; subst a b c; exact h3
    | succ i => intro k' w' v' a b c; simp at a b c; exact e4 i k' w' v' a b c

/-- **C194**, partial: a Go function without results, of parameters of the kinds of `Good`, is called once for each call by
C, with what C passed. -/
theorem arguments_arrive_partial (mem : Nat → BitVec 8) (fuel : Nat) (ks : List Kind) (hk : ∀ k ∈ ks, Good k) (f : List GV → List GV)
    (ws : List W) (he : List.Forall₂ (Ends mem fuel) ks ws) :
    ∃ vs, call mem fuel ⟨ks, []⟩ f ws = .called vs none ∧ vs.length = ks.length ∧
      ∀ (i : Nat) k w v, ks[i]? = some k → ws[i]? = some w → vs[i]? = some v → Means mem k w v := by
  obtain ⟨ss, vs, e1, e2, e3, e4⟩ := arguments_good mem fuel ks ws hk he
  exact ⟨vs, by simp [call, newSignature, e1, e2, returned], e3, e4⟩

/-- Memory with `hi` at 4. -/
def exMem : Nat → BitVec 8 := fun a => if a = 4 then 104 else if a = 5 then 105 else 0

example : (∀ k ∈ [Kind.int8, .string], Good k) ∧
    List.Forall₂ (Ends exMem 10) [Kind.int8, .string] [0xfff0#64, 4] := by
  refine ⟨by decide, .cons (fun h => by cases h) (.cons (fun _ => ⟨[104, 105], ⟨fun i hi => ?_, by decide⟩, by decide⟩) .nil)⟩
  have : i = 0 ∨ i = 1 := by simp at hi; omega
  rcases this with rfl | rfl <;> exact ⟨rfl, by simp⟩

example : call exMem 10 ⟨[.int8, .string], []⟩ (fun _ => []) [0xfff0#64, 4] =
    .called [.int8 0xf0, .string [104, 105]] none := by decide

/-- **C194** fails for every function with one result: C gets nothing, whatever it is. -/
theorem result_fails (mem : Nat → BitVec 8) (fuel : Nat) (ks : List Kind) (k : Kind) (f : List GV → List GV) (ws : List W) (vs : List GV)
    (r : Option (BitVec 64)) (h : call mem fuel ⟨ks, [k]⟩ f ws = .called vs r) : r = none := by
  unfold call newSignature at h
  cases e : ks.mapM sigRune with
  | none => simp [e] at h
  | some ss =>
    simp only [e, Option.bind_eq_bind, Option.bind_some] at h
    split at h
    · cases h
    · simp only [returned, Out.called.injEq] at h
      exact h.2.symm

example : call exMem 10 ⟨[.int32], [.int32]⟩ (fun vs => vs) [7] = .called [.int32 7] none := by decide

/-- **C194** (results): of two results and more, the first reaches C, if it is a number of the kinds that work. -/
theorem first_result_partial (mem : Nat → BitVec 8) (fuel : Nat) (ks : List Kind) (hk : ∀ k ∈ ks, Good k) (k k' : Kind)
    (outs : List Kind) (hr : Good k) (hs : k ≠ .string) (f : List GV → List GV) (hf : ∀ vs, ∃ v l, f vs = v :: l ∧ Typed k v) (ws : List W)
    (he : List.Forall₂ (Ends mem fuel) ks ws) :
    ∃ vs r v l, call mem fuel ⟨ks, k :: k' :: outs⟩ f ws = .called vs (some r) ∧ f vs = v :: l ∧ Gets v r := by
  obtain ⟨ss, vs, e1, e2, e3, e4⟩ := arguments_good mem fuel ks ws hk he
  obtain ⟨v, l, hv, ht⟩ := hf vs
  have key : ∃ s r, sigRune k = some s ∧ returned s (v :: l) = some (some r) ∧ Gets v r := by
    simp only [Good, List.mem_cons, List.not_mem_nil, or_false] at hr
    rcases hr with rfl | rfl | rfl | rfl | rfl | rfl | rfl | rfl | rfl <;> cases v <;>
      first
      | exact ht.elim
      | exact absurd rfl hs
      | exact ⟨_, _, rfl, rfl, rfl⟩
      | exact ⟨_, _, rfl, rfl, BitVec.toInt_signExtend_of_le (by omega)⟩
      | (refine ⟨_, _, rfl, rfl, ?_⟩
         rename_i x
         show (x.setWidth 64).toNat = x.toNat
         rw [BitVec.toNat_setWidth]
         exact Nat.mod_eq_of_lt (Nat.lt_trans x.isLt (by decide)))
  obtain ⟨s, r, h1, h2, h3⟩ := key
  exact ⟨vs, r, v, l, by simp [call, newSignature, e1, e2, h1, hv, h2], hv, h3⟩

example : call exMem 10 ⟨[.int32], [.int16, .int32]⟩ (fun _ => [.int16 0xfffe, .int32 0]) [7] =
    .called [.int32 7] (some 0xfffffffffffffffe) := by decide

theorem sigRune_bad (k : Kind) (hk : ¬ Good k) (hb : k ≠ .uint8) (mem : Nat → BitVec 8) (fuel : Nat) (w : W) (s : Sig)
    (h : sigRune k = some s) : argument mem fuel k s w = none := by
  cases k <;> simp only [Good, List.mem_cons, List.not_mem_nil, or_false, reduceCtorEq, or_self, not_false_eq_true, not_true_eq_false,
    or_true, true_or] at hk hb <;> simp [sigRune, cases] at h <;> first | exact absurd rfl hb | (subst h; rfl)

/-- **C194** fails for every function with a parameter of another kind (`bool`, `int`, `uint16`, pointers, structs and so
on): the process ends, whatever C passes. -/
theorem parameter_fails (mem : Nat → BitVec 8) (fuel : Nat) (t : FT) (k : Kind) (hm : k ∈ t.ins) (hk : ¬ Good k) (hb : k ≠ .uint8)
    (f : List GV → List GV) (ws : List W) (hl : ws.length = t.ins.length) : call mem fuel t f ws = .panic := by
  unfold call
  cases hs : newSignature t with
  | none => rfl
  | some sr =>
    obtain ⟨ss, ret⟩ := sr
    have hss : t.ins.mapM sigRune = some ss := by
      unfold newSignature at hs
      cases e : t.ins.mapM sigRune with
      | none => simp [e] at hs
      | some x =>
        simp only [e, Option.bind_eq_bind, Option.bind_some] at hs
        split at hs
        · cases h2 : sigRune _ with
          | none => rw [h2] at hs; cases hs
          | some y => rw [h2] at hs; simp at hs; rw [hs.1]
        · simp at hs; rw [hs.1]
    have key : ∀ (ks : List Kind) (ss : List Sig) (ws : List W), k ∈ ks → ks.mapM sigRune = some ss → ws.length = ks.length →
        arguments mem fuel ks ss ws = none := by
      intro ks
      induction ks with
      | nil => intro _ _ h; cases h
      | cons a ks ih =>
        intro ss ws hm hss hl
        cases ws with
        | nil => cases hl
        | cons w ws =>
          rw [List.mapM_cons] at hss
          cases ea : sigRune a with
          | none => simp [ea] at hss
          | some s =>
            cases er : ks.mapM sigRune with
            | none => simp [ea, er] at hss
            | some ss' =>
              simp [ea, er] at hss
              subst hss
              simp only [arguments]
              rcases List.mem_cons.1 hm with rfl | hm
              · rw [sigRune_bad k hk hb mem fuel w s ea]; rfl
              · rw [ih ss' ws hm er (by simpa using hl)]
                cases argument mem fuel a s w <;> rfl
    simp only [key t.ins ss ws hm hss hl]

example : ¬ Good .bool ∧ ¬ Good .int ∧ ¬ Good .uint16 ∧ ¬ Good .pointer ∧ ¬ Good .unsafePointer := by decide

/-- **C194** fails for every function of a byte: it is 0, or the process ends, whatever C passes. -/
theorem byte_fails (mem : Nat → BitVec 8) (fuel : Nat) (f : List GV → List GV) (w : W) :
    call mem fuel ⟨[.uint8], []⟩ f [w] = .panic ∨ call mem fuel ⟨[.uint8], []⟩ f [w] = .called [.uint8 0] none := by
  by_cases h0 : w.setWidth 32 = 0
  · left
    simp [call, newSignature, sigRune, cases, arguments, argument, setBool, h0]
  · by_cases h1 : w.setWidth 32 = (1 : BitVec 32)
    · left
      simp [call, newSignature, sigRune, cases, arguments, argument, setBool, h1]
    · right
      have h1' : ¬ w.setWidth 32 = 1#32 := h1
      have h0' : ¬ w.setWidth 32 = 0#32 := h0
      simp [call, newSignature, sigRune, cases, arguments, argument, h0', h1', returned, zero]

/-! ## C195 -/

/-- A goroutine made its callback before the next one started. -/
def OneByOne : List Nat → Prop
  | [] => True
  | a :: b :: c :: l => a = b ∧ b = c ∧ a ∉ l ∧ OneByOne l
  | _ => False

theorem run_one_by_one : ∀ (l : List Nat) (s : R), OneByOne l → (∀ g ∈ l, s.ph g = .begin) →
    (∀ g u, s.ph g = .done u → 0 < u ∧ s.functions[u - 1]? = some g) →
    ∀ g u, (l.foldl R.step s).ph g = .done u → 0 < u ∧ (l.foldl R.step s).functions[u - 1]? = some g
  | [], s, _, _, hi => hi
  | [_], _, h, _, _ => h.elim
  | [_, _], _, h, _, _ => h.elim
  | a :: b :: c :: l, s, h, hb, hi => by
    obtain ⟨rfl, rfl, hn, hl⟩ := h
    have h0 := hb a (by simp)
    have e : (((s.step a).step a).step a) =
        ⟨s.functions ++ [a], fun i => if i = a then .done (s.functions.length + 1) else s.ph i⟩ := by
      simp only [R.step, h0, if_true, List.length_append, List.length_cons, List.length_nil, R.mk.injEq, true_and]
      funext i
      split <;> rfl
    rw [List.foldl_cons, List.foldl_cons, List.foldl_cons, e]
    refine run_one_by_one l _ hl (fun g hg => ?_) (fun g u hu => ?_)
    · have : g ≠ a := fun h => hn (h ▸ hg)
      simp only [this, if_false]
      exact hb g (by simp [hg])
    · simp only at hu ⊢
      split at hu
      · rename_i hg
        cases hu
        subst hg
        exact ⟨by omega, by simp⟩
      · obtain ⟨h1, h2⟩ := hi g u hu
        refine ⟨h1, ?_⟩
        rw [List.getElem?_append_left (List.getElem?_eq_some_iff.1 h2).1]; exact h2

/-- **C195**, partial: of any number of callbacks made one after the other, each calls the function it was made of. -/
theorem own_function_partial (schedule : List Nat) (h : OneByOne schedule) (g u : Nat) (hd : (R.run schedule).ph g = .done u) :
    (R.run schedule).bridge u = some g :=
  (run_one_by_one schedule ⟨[], fun _ => .begin⟩ h (fun _ _ => rfl) (fun _ _ h => by cases h) g u hd).2

example : OneByOne [4, 4, 4, 2, 2, 2] ∧ (R.run [4, 4, 4, 2, 2, 2]).ph 2 = .done 2 ∧ (R.run [4, 4, 4, 2, 2, 2]).bridge 2 = some 2 := by
  unfold OneByOne OneByOne OneByOne; decide

/-- **C195** fails for callbacks made at the same time: both call the same function, and the other is called by none. -/
theorem own_function_fails : ∃ schedule, (R.run schedule).ph 0 = .done 1 ∧ (R.run schedule).ph 1 = .done 1 ∧
    (R.run schedule).bridge 1 = some 0 := ⟨[0, 1, 1, 0, 1, 0], by decide, by decide, by decide⟩

/-- **C195** fails also if no function is lost: the length is read after another was appended. -/
theorem own_function_fails_length : ∃ schedule, (R.run schedule).ph 0 = .done 2 ∧ (R.run schedule).functions = [0, 1] ∧
    (R.run schedule).bridge 2 = some 1 := ⟨[0, 0, 1, 1, 0], by decide, by decide, by decide⟩

end Verif.Vm.Cb
