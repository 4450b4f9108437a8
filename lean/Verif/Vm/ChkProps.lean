import Verif.Vm.ChkSpec
import Verif.Vm.Props
/-!
# C188: a checked result is an error exactly if it is wrong
-/
namespace Verif.Vm.Chk
open Verif.Abi Verif.Vm.Chk.Spec

/-- What the machine has in $result after the assertions: the last one counts. -/
def verdict (t : Test) (r : W) : Bool :=
  let b := match t.equality, t.less, t.more with
    | _, _, some c => (BitVec.ofInt 64 c.value).ult r
    | _, some b, none => r.ult (BitVec.ofInt 64 b.value)
    | some a, none, none => r == BitVec.ofInt 64 a.value
    | none, none, none => false
  if t.inverted then !b else b

/-- The number is written in an instruction. -/
def Small (a : Arg) : Prop := a.index = 0 ∧ a.named = false ∧ 0 ≤ a.value ∧ a.value < 32

/-- Assertions that are compiled. -/
def Compiles (t : Test) : Prop :=
  (∀ a ∈ t.equality, Small a) ∧ (∀ a ∈ t.less, Small a) ∧ (∀ a ∈ t.more, Small a) ∧ t.other = false

/-- Instructions that leave the program counter alone. -/
def Calm (env : Env) (op : BitVec 8) : Prop :=
  ∀ (m : M) (p : Nat), exec env op { m with pc := p } = (exec env op m).map (fun m' => { m' with pc := p })

theorem run_calm (env : Env) (rest : List (BitVec 8)) : ∀ (pre : List (BitVec 8)) (m : M),
    (∀ op ∈ rest, Calm env op) → m.pc = pre.length →
    run env (pre ++ rest) rest.length m =
      (execAll env rest m).map (fun m' => { m' with pc := (pre ++ rest).length }) := by
  have key : ∀ (ops : List (BitVec 8)) (m : M) (p q : Nat), (∀ op ∈ ops, Calm env op) →
      (execAll env ops { m with pc := p }).map (fun m' => ({ m' with pc := q } : M)) =
        (execAll env ops m).map (fun m' => ({ m' with pc := q } : M)) := by
    intro ops
    induction ops with
    | nil => intro m p q _; rfl
    | cons o os ih' =>
      intro m p q ho
      unfold execAll
      rw [ho o (List.mem_cons_self ..) m p]
      cases exec env o m with
      | none => rfl
      | some m2 =>
        simp only [Option.map_some, Option.bind_some]
        exact ih' m2 p q (fun o' ho' => ho o' (List.mem_cons_of_mem _ ho'))
  induction rest with
  | nil =>
    intro pre m _ hp
    simp only [List.append_nil, List.length_nil, run, execAll, Option.map_some]
    rw [if_pos (by omega), ← hp]
  | cons op ops ih =>
    intro pre m h hp
    have hop := h op (List.mem_cons_self ..)
    simp only [List.length_cons, run, execAll]
    have : (pre ++ op :: ops)[m.pc]? = some op := by rw [hp]; simp
    simp only [this]
    have e := hop m m.pc
    have e' : ({ m with pc := m.pc } : M) = m := rfl
    rw [e'] at e
    cases hx : exec env op m with
    | none => rfl
    | some m' =>
      rw [hx] at e
      simp only [Option.map_some, Option.some.injEq] at e
      have hpc : m'.pc = pre.length := by rw [e, ← hp]
      simp only [Option.bind_some]
      have := ih (pre ++ [op]) { m' with pc := m'.pc + 1 } (fun o ho => h o (List.mem_cons_of_mem _ ho))
        (by simp [hpc])
      simp only [List.append_assoc, List.singleton_append] at this
      rw [this]
      exact key ops m' (m'.pc + 1) _ (fun o ho => h o (List.mem_cons_of_mem _ ho))

theorem dm0 : decode (new .math 0) = (.math, 0) := decode_new .math 0 (by omega)
theorem dm1 : decode (new .math 1) = (.math, 1) := decode_new .math 1 (by omega)
theorem dm2 : decode (new .math 2) = (.math, 2) := decode_new .math 2 (by omega)
theorem dm3 : decode (new .math 3) = (.math, 3) := decode_new .math 3 (by omega)

theorem calm_plain (env : Env) (op : BitVec 8) (h : Plain op) : Calm env op := exec_plain_pc env op h

theorem calm_swap (env : Env) : Calm env (new .func 7) := by
  intro m p; simp [exec, decode_new .func 7 (by omega), func]

theorem calm_bits (env : Env) (n : Nat) (h : n < 32) : Calm env (new .bits n) := by
  intro m p; simp [exec, decode_new .bits n h]

theorem calm_math (env : Env) (n : Nat) (h : n < 4) : Calm env (new .math n) := by
  intro m p
  have : n = 0 ∨ n = 1 ∨ n = 2 ∨ n = 3 := by omega
  rcases this with rfl | rfl | rfl | rfl <;>
  simp [exec, dm0, dm1, dm2, dm3, math]

theorem calm_error (env : Env) (itab : W) : Calm (machine env itab) (new .func 27) := by
  intro m p
  simp only [exec, decode_new .func 27 (by omega), func, machine, and_self, if_true, errorMake, Option.map_some]
  split <;> rfl

/-- What one comparison leaves in $result. -/
def compared (op : Nat) (old n : W) : Option Arg → W
  | none => old
  | some x => ofBool (match op with
    | 1 => n.ult (BitVec.ofInt 64 x.value)
    | 2 => (BitVec.ofInt 64 x.value).ult n
    | _ => n == BitVec.ofInt 64 x.value)

/-- The instructions of one assertion, and what they do: $result is what was compared. -/
theorem one_exec (env : Env) (a : Option Arg) (op : Nat) (ho : op = 1 ∨ op = 2 ∨ op = 3) (ha : ∀ x ∈ a, Small x) :
    ∃ text, one a op = .code text ∧ (∀ o ∈ text, Calm env o) ∧ ∀ m : M, ∃ w, execAll env text m =
      some { m with assert := w, result := compared op m.result m.normal a } := by
  cases a with
  | none => exact ⟨[], rfl, by simp, fun m => ⟨m.assert, rfl⟩⟩
  | some x =>
    obtain ⟨h1, h2, h3, h4⟩ := ha x rfl
    have hc : check x = .code [new .func 7, new .bits x.value.toNat, new .func 7] := by
      unfold check; rw [if_neg (by omega), if_pos ⟨h2, h3, h4⟩]
    have h5 : x.value.toNat < 32 := by omega
    have hv : BitVec.ofNat 64 x.value.toNat = BitVec.ofInt 64 x.value := by
      obtain ⟨n, hn⟩ := Int.eq_ofNat_of_zero_le h3
      rw [hn]; simp
    refine ⟨[new .func 7, new .bits x.value.toNat, new .func 7, new .math op], by simp [one, hc, Out.andThen], ?_, ?_⟩
    · intro o hm
      simp only [List.mem_cons, List.not_mem_nil, or_false] at hm
      rcases hm with rfl | rfl | rfl | rfl
      · exact calm_swap env
      · exact calm_bits env _ h5
      · exact calm_swap env
      · exact calm_math env _ (by omega)
    · intro m
      refine ⟨BitVec.ofInt 64 x.value, ?_⟩
      rcases ho with rfl | rfl | rfl <;>
      simp [execAll, exec, decode_new .func 7 (by omega), decode_new .bits _ h5, func, compared,
        dm1, dm2, dm3, math, hv]

theorem ofBool_ne (b : Bool) : (ofBool b != 0) = b := by cases b <;> rfl

/-- All of the assertions. -/
theorem assert_exec (env : Env) (t : Test) (ht : Compiles t) :
    ∃ text, assert t = .code text ∧ (∀ o ∈ text, Calm env o) ∧ ∀ m : M, m.result = 0 → ∃ w, execAll env text m =
      some { m with assert := w, result := ofBool (verdict t m.normal) } := by
  obtain ⟨h1, h2, h3, h4⟩ := ht
  obtain ⟨a, a1, a2, a3⟩ := one_exec env t.equality 3 (by simp) h1
  obtain ⟨b, b1, b2, b3⟩ := one_exec env t.less 1 (by simp) h2
  obtain ⟨c, c1, c2, c3⟩ := one_exec env t.more 2 (by simp) h3
  refine ⟨a ++ b ++ (c ++ if t.inverted then [new .math 0] else []), ?_, ?_, ?_⟩
  · simp [assert, a1, b1, c1, h4, Out.andThen]
  · intro o ho
    simp only [List.mem_append] at ho
    rcases ho with (h | h) | h | h
    · exact a2 o h
    · exact b2 o h
    · exact c2 o h
    · split at h
      · rw [List.mem_singleton.1 h]; exact calm_math env 0 (by omega)
      · simp at h
  · intro m hm
    obtain ⟨w1, e1⟩ := a3 m
    rw [execAll_append, execAll_append, e1, Option.bind_some]
    obtain ⟨w2, e2⟩ := b3 { m with assert := w1, result := compared 3 m.result m.normal t.equality }
    rw [e2, Option.bind_some, execAll_append]
    obtain ⟨w3, e3⟩ := c3 { m with
      assert := w2, result := compared 1 (compared 3 m.result m.normal t.equality) m.normal t.less }
    refine ⟨w3, ?_⟩
    rw [e3, Option.bind_some]
    cases hi : t.inverted with
    | false =>
      simp only [Bool.false_eq_true, if_false, execAll, verdict, hi]
      cases t.equality <;> cases t.less <;> cases t.more <;> simp [compared, hm, ofBool]
    | true =>
      simp only [if_true, execAll, exec, dm0, math, verdict, hi]
      cases t.equality <;> cases t.less <;> cases t.more <;> simp only [compared, hm, ofBool_ne] <;> rfl

theorem plain_result (env : Env) : ∀ (ops : List (BitVec 8)), (∀ o ∈ ops, Plain o) → ∀ m m', execAll env ops m = some m' →
    m'.result = m.result
  | [], _, m, m', h => by simp only [execAll, Option.some.injEq] at h; rw [h]
  | op :: ops, hp, m, m', h => by
    simp only [execAll] at h
    cases he : exec env op m with
    | none => rw [he] at h; cases h
    | some m1 =>
      rw [he, Option.bind_some] at h
      rw [plain_result env ops (fun o ho => hp o (List.mem_cons_of_mem _ ho)) m1 m' h]
      unfold exec at he
      rcases hp op (List.mem_cons_self ..) with h | h | h | h
      · rcases hd : decode op with ⟨mo, n⟩
        rw [hd] at h he
        simp only at h
        subst h
        simp only at he
        split at he
        · rw [← Option.some.inj he]
        · cases he
      · rcases hd : decode op with ⟨mo, n⟩
        rw [hd] at h he
        simp only at h
        subst h
        simp only at he
        split at he
        · rw [← Option.some.inj he]
        · cases he
      · rw [h] at he; rw [← Option.some.inj he]
      · rw [h] at he; rw [← Option.some.inj he]

/-- The registers of the error that is returned, in terms of the register of the result, `i`; `a` and `b` are those of
the two words. -/
theorem compiled_check (env : Env) (itab : W) (l : List (Loc × Loc)) (hp : ∀ p ∈ l, Movable env p)
    (hn : ((moves l).map Prod.snd).Nodup) (t : Test) (ht : Compiles t) (rd x y : Loc) (i a b : Nat)
    (hi : index rd = some i) (ha : index x = some a) (hb : index y = some b) (hab : a ≠ b)
    (ai : env.avail i = true) (aa : env.avail a = true) (ab : env.avail b = true) (args : Nat → W) :
    ∃ text, compile l t rd (.multi (.cons x (.cons y .nil))) = .code text ∧
      ∃ callee m, run (machine env itab) text text.length (start args) = some m ∧
        (∀ p ∈ moves l, callee p.2 = args p.1) ∧ (∀ j, j ∉ (moves l).map Prod.snd → callee j = args j) ∧
        m.out a = (if verdict t (env.call callee i) then 0 else itab) ∧
        m.out b = (if verdict t (env.call callee i) then 0 else itab + 8) := by
  obtain ⟨pre, e, pl, ex⟩ := compileArgs_exec (machine env itab) l hp hn
  obtain ⟨m0, e1, e2, e3, e4⟩ := ex (start args) (fun _ _ => rfl)
  obtain ⟨as, s1, s2, s3⟩ := assert_exec (machine env itab) t ht
  obtain ⟨hi1, hi2, _⟩ := index_read hi
  obtain ⟨ha1, _, ha2⟩ := index_read ha
  obtain ⟨hb1, _, hb2⟩ := index_read hb
  have hr : m0.result = 0 := plain_result _ pre pl _ _ e1
  have hav : (machine env itab).avail = env.avail := rfl
  have hsend : send (.multi (.cons x (.cons y .nil))) = some [new .move a, new .func 6, new .move b] := by
    simp [send, sendTwo, ha2, hb2]
  let tail := (if checked t then [new .load i] else []) ++ [new .func 27, new .move a, new .func 6, new .move b]
  let text := (pre ++ [new .func 2]) ++ ([new .load i] ++ (as ++ tail))
  refine ⟨text, ?_, m0.out, ?_⟩
  · simp [compile, compileCall, e, result, hi2, hsend, s1, Out.andThen, text, tail]
  have hcalm : ∀ o ∈ text, Calm (machine env itab) o := by
    intro o ho
    have hl : Calm (machine env itab) (new .load i) := calm_plain _ _ (plain_load i hi1)
    simp only [text, tail, List.mem_append, List.mem_cons, List.not_mem_nil, or_false] at ho
    rcases ho with (h | rfl) | rfl | h | h | rfl | rfl | rfl | rfl
    · exact calm_plain _ _ (pl o h)
    · exact calm_plain _ _ plain_call
    · exact hl
    · exact s2 o h
    · split at h
      · rw [List.mem_singleton.1 h]; exact hl
      · simp at h
    · exact calm_error env itab
    · exact calm_plain _ _ (plain_move a ha1)
    · exact calm_plain _ _ plain_swap
    · exact calm_plain _ _ (plain_move b hb1)
  have hrun := run_calm (machine env itab) text [] (start args) hcalm rfl
  simp only [List.nil_append] at hrun
  let m1 : M := { m0 with reg := env.call m0.out, out := env.call m0.out, normal := env.call m0.out i }
  obtain ⟨w, hw⟩ := s3 m1 hr
  have hexec : execAll (machine env itab) text (start args) =
      execAll (machine env itab) tail { m1 with assert := w, result := ofBool (verdict t m1.normal) } := by
    simp only [text]
    rw [execAll_append, execAll_append, e1, Option.bind_some]
    have : execAll (machine env itab) [new .func 2] m0 =
        some { m0 with reg := env.call m0.out, out := env.call m0.out } := by
      simp [execAll, exec, decode_new .func 2 (by omega), func, machine]
    rw [this, Option.bind_some, execAll_append]
    have : execAll (machine env itab) [new .load i] { m0 with reg := env.call m0.out, out := env.call m0.out } =
        some m1 := by
      simp only [execAll, exec_load _ i hi1 (show (machine env itab).avail i = true from ai), Option.bind_some, m1]
    rw [this, Option.bind_some, execAll_append, hw, Option.bind_some]
  have htail : ∀ m : M, m.normal = m.reg i → execAll (machine env itab) tail m =
      some (let e := errorMake itab m
        { e with out := update (update m.out a e.normal) b e.length, normal := e.length, length := e.normal }) := by
    intro m hm
    have e27 : ∀ m : M, exec (machine env itab) (new .func 27) m = some (errorMake itab m) := by
      intro m; simp [exec, decode_new .func 27 (by omega), func, machine]
    have hl : execAll (machine env itab) (if checked t then [new .load i] else []) m = some m := by
      split
      · simp only [execAll, exec_load _ i hi1 (show (machine env itab).avail i = true from ai), Option.bind_some, ← hm]
      · rfl
    simp only [tail]
    rw [execAll_append, hl, Option.bind_some]
    have ho : (errorMake itab m).out = m.out := by unfold errorMake; split <;> rfl
    simp only [execAll, e27, exec_move _ a ha1 (show (machine env itab).avail a = true from aa), exec_swap,
      exec_move _ b hb1 (show (machine env itab).avail b = true from ab), Option.bind_some, ho]
  rw [htail _ rfl] at hexec
  refine ⟨_, by rw [hrun, hexec]; rfl, e3, e4, ?_, ?_⟩
  · simp only [update, if_neg hab, if_true, errorMake, m1]
    cases verdict t (env.call m0.out i) <;> simp [ofBool]
  · simp only [update, if_true, errorMake, m1]
    cases verdict t (env.call m0.out i) <;> simp [ofBool]

/-! ## The property -/

/-- The number a register is compared with is not negative, so that the comparison, which is that of natural numbers, is
right for values that are not negative; equality is right for all. -/
theorem verdict_single (t : Test) (ht : Compiles t) (r : W) (v : Int) (hr : r = BitVec.ofInt 64 v)
    (h1 : -2 ^ 63 ≤ v) (h2 : v < 2 ^ 64)
    (hs : (t.equality.isSome ∧ t.less = none ∧ t.more = none) ∨
      (t.equality = none ∧ t.less.isSome ∧ t.more = none ∧ 0 ≤ v) ∨
      (t.equality = none ∧ t.less = none ∧ t.more.isSome ∧ 0 ≤ v)) :
    verdict t r = true ↔ Holds t v := by
  have small : ∀ x : Arg, Small x → (BitVec.ofInt 64 x.value).toNat = x.value.toNat := by
    intro x ⟨_, _, h3, h4⟩
    rw [BitVec.toNat_ofInt]
    congr 1
    exact Int.emod_eq_of_lt h3 (by omega)
  have big : 0 ≤ v → r.toNat = v.toNat := by
    intro h
    rw [hr, BitVec.toNat_ofInt]
    congr 1
    exact Int.emod_eq_of_lt h (by omega)
  obtain ⟨k1, k2, k3, _⟩ := ht
  have flip : ∀ (b : Bool) (p : Prop), (b = true ↔ p) →
      ((if t.inverted then !b else b) = true ↔ if t.inverted then ¬ p else p) := by
    intro b p h
    cases t.inverted
    · simpa using h
    · simp only [if_true]; rw [← h]; cases b <;> simp
  rcases hs with ⟨e, l, g⟩ | ⟨e, l, g, hv⟩ | ⟨e, l, g, hv⟩
  · obtain ⟨x, hx⟩ := Option.isSome_iff_exists.1 e
    have hsx := k1 x hx
    simp only [verdict, Holds, Meets, hx, l, g]
    apply flip
    rw [beq_iff_eq]
    obtain ⟨_, _, h3, h4⟩ := hsx
    constructor
    · intro h
      rw [hr] at h
      have := congrArg BitVec.toInt h
      rw [BitVec.toInt_ofInt, BitVec.toInt_ofInt] at this
      simp only [Int.bmod_def] at this
      split at this <;> split at this <;> omega
    · intro h; rw [hr, h]
  · obtain ⟨x, hx⟩ := Option.isSome_iff_exists.1 l
    have hsx := k2 x hx
    simp only [verdict, Holds, Meets, hx, e, g]
    apply flip
    obtain ⟨_, _, h3, h4⟩ := id hsx
    simp only [BitVec.ult, small x hsx, big hv, decide_eq_true_eq]
    omega
  · obtain ⟨x, hx⟩ := Option.isSome_iff_exists.1 g
    have hsx := k3 x hx
    simp only [verdict, Holds, Meets, hx, e, l]
    apply flip
    obtain ⟨_, _, h3, h4⟩ := id hsx
    simp only [BitVec.ult, small x hsx, big hv, decide_eq_true_eq]
    omega

/-- The tests that are right: one assertion, and values that are not negative unless it is `=`. -/
def Right (t : Test) (v : Int) : Prop :=
  (t.equality.isSome ∧ t.less = none ∧ t.more = none) ∨
  (t.equality = none ∧ t.less.isSome ∧ t.more = none ∧ 0 ≤ v) ∨
  (t.equality = none ∧ t.less = none ∧ t.more.isSome ∧ 0 ≤ v)

/-- **C188**, partial: a call compiled with one assertion (`=`, `<` or `>`, or its inverse) on its result, a number below
32, returns a nil `error` exactly if the result, extended to 64 bits, meets it; values must not be negative for `<` and
`>`. -/
theorem checked_result_partial (env : Env) (itab : W) (hit : itab ≠ 0) (l : List (Loc × Loc))
    (hp : ∀ p ∈ l, Movable env p) (hn : ((moves l).map Prod.snd).Nodup) (t : Test) (ht : Compiles t) (rd x y : Loc)
    (i a b : Nat) (hi : index rd = some i) (ha : index x = some a) (hb : index y = some b) (hab : a ≠ b)
    (ai : env.avail i = true) (aa : env.avail a = true) (ab : env.avail b = true) (args : Nat → W) :
    ∃ text, compile l t rd (.multi (.cons x (.cons y .nil))) = .code text ∧
      ∃ callee m, run (machine env itab) text text.length (start args) = some m ∧
        (∀ p ∈ moves l, callee p.2 = args p.1) ∧ (∀ j, j ∉ (moves l).map Prod.snd → callee j = args j) ∧
        ∀ v : Int, env.call callee i = BitVec.ofInt 64 v → -2 ^ 63 ≤ v → v < 2 ^ 64 → Right t v →
          (m.out a = 0 ↔ Holds t v) := by
  obtain ⟨text, h1, callee, m, h2, h3, h4, h5, _⟩ :=
    compiled_check env itab l hp hn t ht rd x y i a b hi ha hb hab ai aa ab args
  refine ⟨text, h1, callee, m, h2, h3, h4, fun v hv v1 v2 hr => ?_⟩
  rw [h5, ← verdict_single t ht _ v hv v1 v2 hr]
  cases verdict t (env.call callee i)
  · simpa using hit
  · simp

/-- A machine whose function doubles its first argument. -/
def exEnv : Env := ⟨availArm64, fun r => update r 0 (r 0 + r 0), fun _ _ _ => 0, fun _ _ => none, fun _ _ _ => none⟩

/-- `=0`. -/
def exTest : Test := ⟨false, some ⟨0, false, 0⟩, none, none, false⟩

/-- The hypotheses are met: `func(int)int=0` with the argument in R0 and the error in R0 and R1. -/
example : Compiles exTest ∧ Right exTest (-4) ∧ (∀ p ∈ [(Loc.hw (.reg 1), Loc.hw (.reg 0))], Movable exEnv p) ∧
    ((moves [(Loc.hw (.reg 1), Loc.hw (.reg 0))]).map Prod.snd).Nodup := by
  refine ⟨⟨?_, by simp [exTest], by simp [exTest], rfl⟩, .inl ⟨rfl, rfl, rfl⟩, ?_, by decide⟩
  · intro a h; cases h; exact ⟨rfl, rfl, by decide, by decide⟩
  · intro p h; rw [List.mem_singleton.1 h]; exact ⟨[1], [0], rfl, rfl, rfl, by simp [exEnv, availArm64], by simp [exEnv, availArm64]⟩

example : ∃ text, compile [(Loc.hw (.reg 1), Loc.hw (.reg 0))] exTest (.hw (.reg 0))
      (.multi (.cons (.hw (.reg 0)) (.cons (.hw (.reg 1)) .nil))) = .code text ∧
    (run (machine exEnv 64) text text.length (start fun _ => 3)).map (fun m => (m.out 0, m.out 1)) = some (64, 72) ∧
    (run (machine exEnv 64) text text.length (start fun _ => 0)).map (fun m => (m.out 0, m.out 1)) = some (0, 0) :=
  ⟨_, rfl, by decide +kernel, by decide +kernel⟩

section
variable (env : Env) (itab : W) (hit : itab ≠ 0) (l : List (Loc × Loc)) (hp : ∀ p ∈ l, Movable env p)
  (hn : ((moves l).map Prod.snd).Nodup) (rd x y : Loc) (i a b : Nat) (hi : index rd = some i) (ha : index x = some a)
  (hb : index y = some b) (hab : a ≠ b) (ai : env.avail i = true) (aa : env.avail a = true) (ab : env.avail b = true)
  (args : Nat → W)
include hit hp hn hi ha hb hab ai aa ab

/-- **C188** fails: `>=n` (and `<=n`) is checked as `>n`: a result that is `n` is an error. -/
theorem or_equal_fails (n : Nat) (h : n < 32) (less : Bool) :
    ∃ text, compile l ⟨false, some ⟨0, false, n⟩, if less then some ⟨0, false, n⟩ else none,
        if less then none else some ⟨0, false, n⟩, false⟩ rd (.multi (.cons x (.cons y .nil))) = .code text ∧
      ∃ callee m, run (machine env itab) text text.length (start args) = some m ∧
        (env.call callee i = BitVec.ofInt 64 n → m.out a ≠ 0) ∧
        Holds ⟨false, some ⟨0, false, n⟩, if less then some ⟨0, false, n⟩ else none,
          if less then none else some ⟨0, false, n⟩, false⟩ n := by
  have hs : Small ⟨0, false, n⟩ := ⟨rfl, rfl, Int.natCast_nonneg n, by show (n : Int) < 32; omega⟩
  obtain ⟨text, h1, callee, m, h2, h3, h4, h5, _⟩ :=
    compiled_check env itab l hp hn ⟨false, some ⟨0, false, n⟩, if less then some ⟨0, false, n⟩ else none,
        if less then none else some ⟨0, false, n⟩, false⟩ (by
      refine ⟨?_, ?_, ?_, rfl⟩ <;> intro q hq <;> cases less <;> simp at hq <;> subst hq <;> exact hs)
      rd x y i a b hi ha hb hab ai aa ab args
  refine ⟨text, h1, callee, m, h2, fun hv => ?_, ?_⟩
  · rw [h5, hv]
    cases less <;> simpa [verdict, BitVec.ult] using hit
  · cases less <;> simp [Holds, Meets]

/-- **C188** fails: a negative result is greater than any number. -/
theorem negative_fails (n : Nat) (h : n < 32) (v : Int) (hv1 : -2 ^ 63 ≤ v) (hv2 : v < 0) :
    ∃ text, compile l ⟨false, none, none, some ⟨0, false, n⟩, false⟩ rd (.multi (.cons x (.cons y .nil))) = .code text ∧
      ∃ callee m, run (machine env itab) text text.length (start args) = some m ∧
        (env.call callee i = BitVec.ofInt 64 v → m.out a = 0) ∧
        ¬ Holds ⟨false, none, none, some ⟨0, false, n⟩, false⟩ v := by
  have hs : Small ⟨0, false, n⟩ := ⟨rfl, rfl, Int.natCast_nonneg n, by show (n : Int) < 32; omega⟩
  obtain ⟨text, h1, callee, m, h2, h3, h4, h5, _⟩ :=
    compiled_check env itab l hp hn ⟨false, none, none, some ⟨0, false, n⟩, false⟩ (by
      refine ⟨?_, ?_, ?_, rfl⟩ <;> intro q hq <;> simp at hq; subst hq; exact hs)
      rd x y i a b hi ha hb hab ai aa ab args
  refine ⟨text, h1, callee, m, h2, fun hv => ?_, ?_⟩
  · rw [h5, hv]
    have : (BitVec.ofInt 64 (n : Int)).ult (BitVec.ofInt 64 v) = true := by
      simp only [BitVec.ult, BitVec.toNat_ofInt, decide_eq_true_eq]
      have e1 : (n : Int) % (2 ^ 64 : Nat) = n := Int.emod_eq_of_lt (by simp) (by omega)
      have e2 : v % (2 ^ 64 : Nat) = v + 2 ^ 64 := by
        rw [← Int.add_emod_right]; exact Int.emod_eq_of_lt (by omega) (by omega)
      rw [e1, e2]; omega
    have hv' : verdict ⟨false, none, none, some ⟨0, false, n⟩, false⟩ (BitVec.ofInt 64 v) = true := this
    rw [hv', if_pos rfl]
  · simp only [Holds, Meets, Bool.false_eq_true, if_false]; omega

/-- **C188** fails: the bits above an `int`, which C leaves open, are compared as well. -/
theorem narrow_fails :
    ∃ text, compile l exTest rd (.multi (.cons x (.cons y .nil))) = .code text ∧
      ∃ callee m, run (machine env itab) text text.length (start args) = some m ∧
        (env.call callee i = 0x100000000 → m.out a ≠ 0) ∧ Has 32 0x100000000 0 ∧ Holds exTest 0 := by
  obtain ⟨text, h1, callee, m, h2, h3, h4, h5, _⟩ :=
    compiled_check env itab l hp hn exTest (by
      refine ⟨?_, by simp [exTest], by simp [exTest], rfl⟩
      intro a h; cases h; exact ⟨rfl, rfl, by decide, by decide⟩)
      rd x y i a b hi ha hb hab ai aa ab args
  refine ⟨text, h1, callee, m, h2, fun hv => ?_, by unfold Has; decide, by simp [Holds, Meets, exTest]⟩
  rw [h5, hv]
  have : verdict exTest 0x100000000 = false := by decide
  rw [this]; exact hit

/-- **C188** fails: a function that returns `error` and has no assertions always returns one. -/
theorem unchecked_fails :
    ∃ text, compile l ⟨false, none, none, none, false⟩ rd (.multi (.cons x (.cons y .nil))) = .code text ∧
      ∃ m, run (machine env itab) text text.length (start args) = some m ∧ m.out a ≠ 0 ∧
        ∀ v, Holds ⟨false, none, none, none, false⟩ v := by
  obtain ⟨text, h1, callee, m, h2, h3, h4, h5, _⟩ :=
    compiled_check env itab l hp hn ⟨false, none, none, none, false⟩ (by
      refine ⟨?_, ?_, ?_, rfl⟩ <;> intro q hq <;> simp at hq)
      rd x y i a b hi ha hb hab ai aa ab args
  refine ⟨text, h1, m, h2, ?_, fun v => by simp [Holds, Meets]⟩
  rw [h5]; simpa [verdict] using hit

/-- **C188** fails: the error does not say what the result was; its two words are the same for all wrong results. -/
theorem code_fails (t : Test) (ht : Compiles t) :
    ∃ text, compile l t rd (.multi (.cons x (.cons y .nil))) = .code text ∧
      ∃ m, run (machine env itab) text text.length (start args) = some m ∧
        (m.out a ≠ 0 → m.out a = itab ∧ m.out b = itab + 8) := by
  obtain ⟨text, h1, callee, m, h2, h3, h4, h5, h6⟩ :=
    compiled_check env itab l hp hn t ht rd x y i a b hi ha hb hab ai aa ab args
  refine ⟨text, h1, m, h2, fun h => ?_⟩
  rw [h5] at h ⊢
  rw [h6]
  cases hv : verdict t (env.call callee i) with
  | true => simp [hv] at h
  | false => simp
end

/-- **C188** fails: an assertion about a parameter, as in the documentation's `size_t<@3`, panics when it is compiled. -/
theorem parameter_fails (l : List (Loc × Loc)) (t : Test) (k : Nat) (n : Bool) (v : Int) (rd sd : Loc)
    (h : t.equality = some ⟨k + 1, n, v⟩ ∨ (t.equality = none ∧ t.less = some ⟨k + 1, n, v⟩) ∨
      (t.equality = none ∧ t.less = none ∧ t.more = some ⟨k + 1, n, v⟩)) : compile l t rd sd = .panic := by
  unfold compile
  cases compileCall l with
  | none => rfl
  | some text =>
    have hp : assert t = .panic := by
      rcases h with h | ⟨e, h⟩ | ⟨e, g, h⟩ <;> simp_all [assert, one, check, Out.andThen]
    simp only [result]
    cases read rd <;> cases send sd <;> simp [hp, Out.andThen]

end Verif.Vm.Chk
