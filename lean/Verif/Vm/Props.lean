import Verif.Vm.Model
import Mathlib.Data.List.Nodup
/-!
# C43: the virtual machine of calls
-/
namespace Verif.Vm
open Verif.Abi

/-! ## Instructions -/

theorem decode_new_fin : ∀ n : Fin 32, ∀ m ∈ [Mode.func, .arch, .load, .slow, .move, .math, .bits, .none],
    decode (new m n.val) = (m, n.val) := by decide +kernel

/-- An instruction made of a mode and an argument below 32 is read back as that mode and argument. -/
theorem decode_new (m : Mode) (n : Nat) (h : n < 32) : decode (new m n) = (m, n) :=
  decode_new_fin ⟨n, h⟩ m (by cases m <;> simp)

/-- And every byte is such an instruction. -/
theorem new_decode (op : BitVec 8) : (decode op).2 < 32 ∧ new (decode op).1 (decode op).2 = op := by
  have : ∀ k : Fin 256, (decode (BitVec.ofFin k)).2 < 32 ∧
      new (decode (BitVec.ofFin k)).1 (decode (BitVec.ofFin k)).2 = BitVec.ofFin k := by decide +kernel
  exact this op.toFin

/-- But an argument of 32 or more changes the mode: the number of the 33rd callback of a call is
written as an instruction that does nothing (asm.go:202-207 allows 255 of them). -/
theorem new_large_fails : decode (new .bits 32) = (.none, 0) ∧ decode (new .func 32) = (.arch, 0) := by
  decide +kernel

/-! ## Straight-line programs -/

/-- The instructions one after another. -/
def execAll (env : Env) : List (BitVec 8) → M → Option M
  | [], m => some m
  | op :: ops, m => (exec env op m).bind (execAll env ops)

/-- Instructions that only move values, and the call. -/
def Plain (op : BitVec 8) : Prop :=
  (decode op).1 = .load ∨ (decode op).1 = .move ∨ decode op = (.func, 6) ∨ decode op = (.func, 2)

theorem execAll_append (env : Env) (a b : List (BitVec 8)) : ∀ m,
    execAll env (a ++ b) m = (execAll env a m).bind (execAll env b) := by
  induction a with
  | nil => intro m; rfl
  | cons op ops ih =>
    intro m
    simp only [List.cons_append, execAll]
    cases exec env op m with
    | none => rfl
    | some m' => exact ih m'

theorem exec_plain_pc (env : Env) (op : BitVec 8) (h : Plain op) (m : M) (p : Nat) :
    exec env op { m with pc := p } = (exec env op m).map (fun m' => { m' with pc := p }) := by
  unfold exec
  rcases h with h | h | h | h
  · rcases hd : decode op with ⟨mo, n⟩
    rw [hd] at h
    simp only at h
    subst h
    simp only
    split <;> rfl
  · rcases hd : decode op with ⟨mo, n⟩
    rw [hd] at h
    simp only at h
    subst h
    simp only
    split <;> rfl
  · rw [h]; rfl
  · rw [h]; rfl

theorem run_plain (env : Env) (rest : List (BitVec 8)) : ∀ (pre : List (BitVec 8)) (m : M),
    (∀ op ∈ rest, Plain op) → m.pc = pre.length →
    run env (pre ++ rest) rest.length m =
      (execAll env rest m).map (fun m' => { m' with pc := (pre ++ rest).length }) := by
  induction rest with
  | nil =>
    intro pre m _ hp
    simp only [List.append_nil, List.length_nil, run, execAll, Option.map_some]
    rw [if_pos (by omega), ← hp]
  | cons op ops ih =>
    intro pre m h hp
    have hop := h op (List.mem_cons_self ..)
    simp only [List.length_cons, run, execAll]
    have : (pre ++ op :: ops)[m.pc]? = some op := by rw [hp]; simp
    simp only [this]
    have e := exec_plain_pc env op hop m m.pc
    have e' : ({ m with pc := m.pc } : M) = m := rfl
    rw [e'] at e
    cases hx : exec env op m with
    | none => rfl
    | some m' =>
      rw [hx] at e
      simp only [Option.map_some, Option.some.injEq] at e
      have hpc : m'.pc = pre.length := by rw [e, ← hp]
      simp only [Option.bind_some]
      have := ih (pre ++ [op]) { m' with pc := m'.pc + 1 } (fun o ho => h o (List.mem_cons_of_mem _ ho))
        (by simp [hpc])
      simp only [List.append_assoc, List.singleton_append] at this
      rw [this]
      have key : ∀ (ops : List (BitVec 8)) (m : M) (p q : Nat), (∀ op ∈ ops, Plain op) →
          (execAll env ops { m with pc := p }).map (fun m' => ({ m' with pc := q } : M)) =
            (execAll env ops m).map (fun m' => ({ m' with pc := q } : M)) := by
        intro ops
        induction ops with
        | nil => intro m p q _; rfl
        | cons o os ih' =>
          intro m p q ho
          unfold execAll
          rw [exec_plain_pc env o (ho o (List.mem_cons_self ..)) m p]
          cases exec env o m with
          | none => rfl
          | some m2 =>
            simp only [Option.map_some, Option.bind_some]
            exact ih' m2 p q (fun o' ho' => ho o' (List.mem_cons_of_mem _ ho'))
      exact key ops m' (m'.pc + 1) _ (fun o ho => h o (List.mem_cons_of_mem _ ho))

/-- A program of such instructions, run from the start, does them in order and ends. -/
theorem run_straight (env : Env) (text : List (BitVec 8)) (args : Nat → W) (h : ∀ op ∈ text, Plain op) :
    run env text text.length (start args) =
      (execAll env text (start args)).map (fun m' => { m' with pc := text.length }) := by
  simpa using run_plain env text [] (start args) h rfl

/-! ## Moving arguments -/

/-- The register of a place that is a single register. -/
def index : Loc → Option Nat
  | .hw (.reg n) => if n < 16 then some n else none
  | .hw (.fp n) => if n < 16 then some (16 + n) else none
  | _ => none

/-- The registers of a place that is one register or two. -/
def indices : Loc → Option (List Nat)
  | .multi (.cons a (.cons b .nil)) => do
    let i ← index a
    let j ← index b
    some [i, j]
  | l => (index l).map (fun i => [i])

theorem index_read {l : Loc} {i : Nat} (h : index l = some i) :
    i < 32 ∧ read l = some [new .load i] ∧ send l = some [new .move i] := by
  cases l with
  | hw w =>
    cases w <;> simp only [index, Option.ite_none_right_eq_some, Option.some.injEq, reduceCtorEq] at h
    · obtain ⟨h, rfl⟩ := h; exact ⟨by omega, rfl, rfl⟩
    · obtain ⟨h, rfl⟩ := h; exact ⟨by omega, rfl, rfl⟩
  | _ => simp [index] at h

theorem exec_load (env : Env) (i : Nat) (hi : i < 32) (ha : env.avail i = true) (m : M) :
    exec env (new .load i) m = some { m with normal := m.reg i } := by
  simp [exec, decode_new .load i hi, ha]

theorem exec_move (env : Env) (i : Nat) (hi : i < 32) (ha : env.avail i = true) (m : M) :
    exec env (new .move i) m = some { m with out := update m.out i m.normal } := by
  simp [exec, decode_new .move i hi, ha]

theorem exec_swap (env : Env) (m : M) :
    exec env (new .func 6) m = some { m with normal := m.length, length := m.normal } := by
  simp [exec, decode_new .func 6 (by omega), func]

theorem plain_load (i : Nat) (hi : i < 32) : Plain (new .load i) := by
  simp [Plain, decode_new .load i hi]

theorem plain_move (i : Nat) (hi : i < 32) : Plain (new .move i) := by
  simp [Plain, decode_new .move i hi]

theorem plain_swap : Plain (new .func 6) := by simp [Plain, decode_new .func 6 (by omega)]

theorem plain_call : Plain (new .func 2) := by simp [Plain, decode_new .func 2 (by omega)]

/-- The registers to copy from and to. -/
def moves : List (Loc × Loc) → List (Nat × Nat)
  | [] => []
  | (r, s) :: l => ((indices r).getD []).zip ((indices s).getD []) ++ moves l

/-- The places are made of as many registers on both sides, one or two, that this machine has. -/
def Movable (env : Env) (p : Loc × Loc) : Prop :=
  ∃ is js, indices p.1 = some is ∧ indices p.2 = some js ∧ is.length = js.length ∧
    (∀ i ∈ is, env.avail i = true) ∧ (∀ j ∈ js, env.avail j = true)

theorem indices_cases {l : Loc} {is : List Nat} (h : indices l = some is) :
    (∃ i, index l = some i ∧ is = [i]) ∨
    (∃ a b i j, l = .multi (.cons a (.cons b .nil)) ∧ index a = some i ∧ index b = some j ∧ is = [i, j]) := by
  unfold indices at h
  split at h
  · rename_i a b
    simp only [Option.bind_eq_bind, Option.bind_eq_some_iff, Option.some.injEq] at h
    obtain ⟨i, hi, j, hj, rfl⟩ := h
    exact Or.inr ⟨a, b, i, j, rfl, hi, hj, rfl⟩
  · simp only [Option.map_eq_some_iff] at h
    obtain ⟨i, hi, rfl⟩ := h
    exact Or.inl ⟨i, hi, rfl⟩

/-- One argument: what its instructions do. -/
theorem exec_pair (env : Env) (r s : Loc) (h : Movable env (r, s)) :
    ∃ a b, read r = some a ∧ send s = some b ∧ (∀ op ∈ a ++ b, Plain op) ∧
      ∀ m : M, ∃ m', execAll env (a ++ b) m = some m' ∧ m'.reg = m.reg ∧
        (((moves [(r, s)]).map Prod.snd).Nodup → ∀ p ∈ moves [(r, s)], m'.out p.2 = m.reg p.1) ∧
        ∀ j, j ∉ (moves [(r, s)]).map Prod.snd → m'.out j = m.out j := by
  obtain ⟨is, js, hi, hj, hl, ai, aj⟩ := h
  simp only at hi hj
  have hm : moves [(r, s)] = is.zip js := by simp [moves, hi, hj]
  rw [hm]
  rcases indices_cases hi with ⟨i, ei, rfl⟩ | ⟨r1, r2, i1, i2, rfl, ei1, ei2, rfl⟩ <;>
    rcases indices_cases hj with ⟨j, ej, rfl⟩ | ⟨s1, s2, j1, j2, rfl, ej1, ej2, rfl⟩ <;>
    simp only [List.length_cons, List.length_nil] at hl <;> try omega
  · obtain ⟨li, ri, _⟩ := index_read ei
    obtain ⟨lj, _, sj⟩ := index_read ej
    refine ⟨_, _, ri, sj, ?_, fun m => ⟨{ m with normal := m.reg i, out := update m.out j (m.reg i) }, ?_, rfl, ?_, ?_⟩⟩
    · simp [plain_load i li, plain_move j lj]
    · simp only [List.cons_append, List.nil_append, execAll, exec_load env i li (ai i (by simp)),
        Option.bind_some, exec_move env j lj (aj j (by simp))]
    · simp [update]
    · intro k hk
      simp only [List.zip_cons_cons, List.zip_nil_left, List.map_cons, List.map_nil, List.mem_singleton] at hk
      simp [update, hk]
  · obtain ⟨l1, a1, _⟩ := index_read ei1
    obtain ⟨l2, a2, _⟩ := index_read ei2
    obtain ⟨k1, _, b1⟩ := index_read ej1
    obtain ⟨k2, _, b2⟩ := index_read ej2
    refine ⟨[new .load i2] ++ [new .func 6] ++ [new .load i1], [new .move j1] ++ [new .func 6] ++ [new .move j2],
      by simp [read, readTwo, a1, a2], by simp [send, sendTwo, b1, b2], ?_, fun m =>
      ⟨{ m with normal := m.reg i2, length := m.reg i1, out := update (update m.out j1 (m.reg i1)) j2 (m.reg i2) }, ?_, ?_, ?_, ?_⟩⟩
    · simp [plain_load i1 l1, plain_load i2 l2, plain_swap, plain_move j1 k1, plain_move j2 k2]
    · simp only [List.cons_append, List.nil_append, execAll, exec_load env i1 l1 (ai i1 (by simp)),
        exec_load env i2 l2 (ai i2 (by simp)), exec_swap,
        Option.bind_some, exec_move env j1 k1 (aj j1 (by simp)), exec_move env j2 k2 (aj j2 (by simp))]
    · rfl
    · intro hn p hp
      simp only [List.zip_cons_cons, List.zip_nil_left, List.map_cons, List.map_nil, List.nodup_cons,
        List.mem_singleton, List.not_mem_nil] at hn
      simp only [List.zip_cons_cons, List.zip_nil_left, List.mem_cons, List.not_mem_nil, or_false] at hp
      rcases hp with rfl | rfl
      · simp [update, hn.1]
      · simp [update]
    · intro k hk
      simp only [List.zip_cons_cons, List.zip_nil_left, List.map_cons, List.map_nil, List.mem_cons,
        List.not_mem_nil, or_false, not_or] at hk
      simp [update, hk.1, hk.2]

theorem moves_cons (p : Loc × Loc) (l : List (Loc × Loc)) : moves (p :: l) = moves [p] ++ moves l := by
  obtain ⟨r, s⟩ := p
  simp [moves]

theorem equals_eq {r s : Loc} (h : r.equals s = some true) : r = s := by
  revert h
  cases r <;> cases s <;> simp [Loc.equals]

theorem index_hw {l : Loc} {i : Nat} (h : index l = some i) : ∃ w, l = .hw w := by
  cases l with
  | hw w => exact ⟨w, rfl⟩
  | _ => simp [index] at h

theorem equals_isSome {env : Env} {r s : Loc} (h : Movable env (r, s)) : ∃ b, r.equals s = some b := by
  obtain ⟨is, js, hi, hj, hl, _, _⟩ := h
  simp only at hi hj
  rcases indices_cases hi with ⟨i, ei, rfl⟩ | ⟨r1, r2, i1, i2, rfl, ei1, ei2, rfl⟩ <;>
    rcases indices_cases hj with ⟨j, ej, rfl⟩ | ⟨s1, s2, j1, j2, rfl, ej1, ej2, rfl⟩ <;>
    simp only [List.length_cons, List.length_nil] at hl <;> try omega
  · obtain ⟨a, rfl⟩ := index_hw ei
    obtain ⟨b, rfl⟩ := index_hw ej
    exact ⟨_, rfl⟩
  · obtain ⟨a, rfl⟩ := index_hw ei1
    obtain ⟨b, rfl⟩ := index_hw ei2
    obtain ⟨c, rfl⟩ := index_hw ej1
    obtain ⟨d, rfl⟩ := index_hw ej2
    by_cases h1 : a = c <;> by_cases h2 : b = d <;> simp [Loc.equals, Locs.equals, h1, h2]

theorem moves_self (r : Loc) : ∀ p ∈ moves [(r, r)], p.1 = p.2 := by
  simp only [moves, List.append_nil]
  generalize (indices r).getD [] = is
  induction is with
  | nil => simp
  | cons a as ih =>
    intro p hp
    simp only [List.zip_cons_cons, List.mem_cons] at hp
    rcases hp with rfl | hp
    · rfl
    · exact ih p hp

/-- The instructions for the arguments, run one after another. -/
theorem compileArgs_exec (env : Env) (l : List (Loc × Loc)) : (∀ p ∈ l, Movable env p) →
    ((moves l).map Prod.snd).Nodup →
    ∃ text, compileArgs l = some text ∧ (∀ op ∈ text, Plain op) ∧
      ∀ m : M, (∀ j ∈ (moves l).map Prod.snd, m.out j = m.reg j) →
        ∃ m', execAll env text m = some m' ∧ m'.reg = m.reg ∧
          (∀ p ∈ moves l, m'.out p.2 = m.reg p.1) ∧
          ∀ j, j ∉ (moves l).map Prod.snd → m'.out j = m.out j := by
  induction l with
  | nil =>
    intro _ _
    exact ⟨[], rfl, by simp, fun m _ => ⟨m, rfl, rfl, by simp [moves], fun _ _ => rfl⟩⟩
  | cons p l ih =>
    intro hp hn
    obtain ⟨r, s⟩ := p
    rw [moves_cons, List.map_append] at hn
    obtain ⟨hn1, hn2, hn3⟩ := List.nodup_append.1 hn
    obtain ⟨rest, er, pr, ex⟩ := ih (fun q hq => hp q (List.mem_cons_of_mem _ hq)) hn2
    have hmov := hp (r, s) (List.mem_cons_self ..)
    obtain ⟨b, eb⟩ := equals_isSome hmov
    cases b with
    | true =>
      obtain rfl := equals_eq eb
      refine ⟨rest, by simp [compileArgs, eb, er], pr, fun m hm => ?_⟩
      rw [moves_cons] at hm ⊢
      rw [List.map_append] at hm ⊢
      obtain ⟨m', e1, e2, e3, e4⟩ := ex m (fun j hj => hm j (List.mem_append_right _ hj))
      refine ⟨m', e1, e2, ?_, fun j hj => e4 j (fun h => hj (List.mem_append_right _ h))⟩
      intro q hq
      rcases List.mem_append.1 hq with hq | hq
      · have hj : q.2 ∈ (moves [(r, r)]).map Prod.snd := List.mem_map_of_mem hq
        rw [e4 q.2 (fun h => hn3 _ hj _ h rfl), hm q.2 (List.mem_append_left _ hj), moves_self r q hq]
      · exact e3 q hq
    | false =>
      obtain ⟨a, b, ra, sb, pl, ex'⟩ := exec_pair env r s hmov
      refine ⟨a ++ b ++ rest, by simp [compileArgs, eb, er, ra, sb], ?_, fun m hm => ?_⟩
      · intro op ho
        rcases List.mem_append.1 ho with ho | ho
        · exact pl op ho
        · exact pr op ho
      rw [moves_cons] at hm ⊢
      rw [List.map_append] at hm ⊢
      obtain ⟨m1, e1, e2, e3, e4⟩ := ex' m
      have hm1 : ∀ j ∈ (moves l).map Prod.snd, m1.out j = m1.reg j := by
        intro j hj
        rw [e4 j (fun h => hn3 _ h _ hj rfl), e2]
        exact hm j (List.mem_append_right _ hj)
      obtain ⟨m2, f1, f2, f3, f4⟩ := ex m1 hm1
      refine ⟨m2, by rw [execAll_append, e1, Option.bind_some, f1], by rw [f2, e2], ?_, ?_⟩
      · intro q hq
        rcases List.mem_append.1 hq with hq | hq
        · have hj : q.2 ∈ (moves [(r, s)]).map Prod.snd := List.mem_map_of_mem hq
          rw [f4 q.2 (fun h => hn3 _ hj _ h rfl)]
          exact e3 hn1 q hq
        · rw [f3 q hq, e2]
      · intro j hj
        rw [f4 j (fun h => hj (List.mem_append_right _ h)),
          e4 j (fun h => hj (List.mem_append_left _ h))]

/-- C43, in part: a compiled call whose arguments are in one or two registers, with no two of them
going to the same one, calls the function with every argument where it belongs, whatever the order and
even if the places of some are the registers of others, and gives what the function gives; the registers
that are no argument are as they were. -/
theorem compiled_call_partial (env : Env) (l : List (Loc × Loc)) (hp : ∀ p ∈ l, Movable env p)
    (hn : ((moves l).map Prod.snd).Nodup) (args : Nat → W) :
    ∃ text, compileCall l = some text ∧ ∃ callee m, run env text text.length (start args) = some m ∧
      m.out = env.call callee ∧
      (∀ p ∈ moves l, callee p.2 = args p.1) ∧
      (∀ j, j ∉ (moves l).map Prod.snd → callee j = args j) := by
  obtain ⟨text, e, pl, ex⟩ := compileArgs_exec env l hp hn
  obtain ⟨m', e1, _, e3, e4⟩ := ex (start args) (fun _ _ => rfl)
  refine ⟨text ++ [new .func 2], by simp [compileCall, e], m'.out,
    { m' with reg := env.call m'.out, out := env.call m'.out, pc := (text ++ [new .func 2]).length }, ?_, rfl, e3, e4⟩
  rw [run_straight env _ args, execAll_append, e1]
  · simp [execAll, exec, decode_new .func 2 (by omega), func]
  · intro op ho
    rcases List.mem_append.1 ho with ho | ho
    · exact pl op ho
    · rw [List.mem_singleton.1 ho]; exact plain_call

/-- Swapping two arguments and a string: an example of such a call, on the machine of arm64. -/
example : ∃ text, compileCall [(.hw (.reg 0), .hw (.reg 1)), (.hw (.reg 1), .hw (.reg 0)), (.hw (.fp 2), .hw (.fp 2)),
      (.multi (.cons (.hw (.reg 2)) (.cons (.hw (.reg 3)) .nil)), .multi (.cons (.hw (.reg 3)) (.cons (.hw (.reg 2)) .nil)))] =
    some text ∧ text.length = 11 := ⟨_, rfl, rfl⟩

example (env : Env) (h : ∀ n, env.avail n = availArm64 n) : ∀ p ∈ [(Loc.hw (.reg 0), Loc.hw (.reg 1)), (.hw (.reg 1), .hw (.reg 0)),
    (.multi (.cons (.hw (.reg 2)) (.cons (.hw (.reg 3)) .nil)), .multi (.cons (.hw (.reg 3)) (.cons (.hw (.reg 2)) .nil)))],
    Movable env p := by
  intro p hp
  simp only [List.mem_cons, List.not_mem_nil, or_false] at hp
  rcases hp with rfl | rfl | rfl
  · exact ⟨[0], [1], rfl, rfl, rfl, by simp [h, availArm64], by simp [h, availArm64]⟩
  · exact ⟨[1], [0], rfl, rfl, rfl, by simp [h, availArm64], by simp [h, availArm64]⟩
  · exact ⟨[2, 3], [3, 2], rfl, rfl, rfl, by simp [h, availArm64], by simp [h, availArm64]⟩

/-- C43 fails for values of more than two parts: the compilation of a slice panics. -/
theorem slices_panic (a b c : Loc) (s : Loc) :
    compileCall [(.multi (.cons a (.cons b (.cons c .nil))), s)] = none := by
  cases s with
  | multi ls =>
    simp only [compileCall, compileArgs, Loc.equals]
    cases (Locs.cons a (Locs.cons b (Locs.cons c Locs.nil))).equals ls <;> simp [read, readTwo]
  | _ => simp [compileCall, compileArgs, Loc.equals, read, readTwo]

/-! ## Which variant -/

/-- The fast variant is only chosen for programs that never touch a register that it does not have. -/
theorem usesFast_sound (text : List (BitVec 8)) (h : usesFast text = true) :
    ∀ n ∈ mentions text, availFast n = true := by
  intro n hn
  have h1 := List.all_eq_true.1 h n hn
  simp only [availFast, Bool.or_eq_true, beq_iff_eq]
  split at h1
  · simp only [decide_eq_true_eq] at h1; omega
  · simp only [decide_eq_true_eq] at h1; omega

/-- C43 fails: a call of three words that are where they should be already needs no instructions for them, so that the
fast variant is chosen, which has no third register to pass on, and pinning the third pointer panics. -/
theorem fast_variant_drops_arguments_fails :
    ∃ text, compileCall [(.hw (.reg 0), .hw (.reg 0)), (.hw (.reg 1), .hw (.reg 1)), (.hw (.reg 2), .hw (.reg 2))] =
      some text ∧ text = [new .func 2] ∧ usesFast text = true ∧ availFast 2 = false := ⟨_, rfl, rfl, rfl, rfl⟩

/-- C43 fails on amd64: some registers of the instruction set panic. -/
theorem amd64_registers_fails : availAmd64 9 = false ∧ availAmd64 31 = false ∧
    ∀ (env : Env) (m : M), env.avail = availAmd64 → exec env (new .load 9) m = none := by
  refine ⟨rfl, rfl, fun env m h => ?_⟩
  simp [exec, decode_new .load 9 (by omega), h, availAmd64]

/-! ## Jumps, mathematics and the heap -/

/-- C43 fails: a jump skips the instruction that it is meant to go to. -/
theorem jump_fails (env : Env) (text : List (BitVec 8)) (m : M) (fuel : Nat)
    (h : text[m.pc]? = some (new .func 1)) (ha : m.assert ≠ 0) :
    run env text (fuel + 1) m = run env text fuel { m with pc := m.normal.toNat + 1 } := by
  have : (m.assert != 0) = true := by simpa using ha
  simp only [run, h, exec, decode_new .func 1 (by omega), func, this, if_true, Option.bind_some]

example : (run ⟨availArm64, id, fun _ _ _ => 0, fun _ _ => none, fun _ _ _ => none⟩
    [new .bits 3, new .func 7, new .bits 3, new .func 1, new .bits 7] 9
    (start fun _ => 0)).map (fun m => m.normal) = some 7#64 := by decide +kernel

/-- The integer operations on $normal and $length are those of 64-bit numbers; the comparisons write 1 if they hold. -/
theorem math_meaning (env : Env) (m : M) :
    (∃ w, math env 5 m = some w ∧ w.toNat = (m.normal.toNat + m.length.toNat) % 2 ^ 64) ∧
    (∃ w, math env 6 m = some w ∧ w.toNat = (2 ^ 64 + m.normal.toNat - m.length.toNat) % 2 ^ 64) ∧
    (∃ w, math env 7 m = some w ∧ w.toNat = (m.normal.toNat * m.length.toNat) % 2 ^ 64) ∧
    (m.length ≠ 0 → ∃ w, math env 8 m = some w ∧ w.toNat = m.normal.toNat / m.length.toNat) ∧
    (m.length ≠ 0 → ∃ w, math env 9 m = some w ∧ w.toNat = m.normal.toNat % m.length.toNat) ∧
    (m.length = 0 → math env 8 m = none ∧ math env 9 m = none) ∧
    (∃ w, math env 18 m = some w ∧ w.toNat = m.normal.toNat * 2 ^ m.length.toNat % 2 ^ 64) ∧
    (∃ w, math env 19 m = some w ∧ w.toNat = m.normal.toNat / 2 ^ m.length.toNat) ∧
    (∃ w, math env 1 m = some w ∧ (w = 1 ↔ m.normal.toNat < m.assert.toNat)) ∧
    (∃ w, math env 2 m = some w ∧ (w = 1 ↔ m.assert.toNat < m.normal.toNat)) ∧
    (∃ w, math env 3 m = some w ∧ (w = 1 ↔ m.normal = m.assert)) := by
  refine ⟨⟨_, rfl, by simp⟩, ⟨_, rfl, ?_⟩, ⟨_, rfl, by simp⟩, fun h => ?_, fun h => ?_, fun h => ?_,
    ⟨_, rfl, by simp [Nat.shiftLeft_eq]⟩, ⟨_, rfl, by simp [Nat.shiftRight_eq_div_pow]⟩, ⟨_, rfl, ?_⟩, ⟨_, rfl, ?_⟩, ⟨_, rfl, ?_⟩⟩
  · rw [BitVec.toNat_sub]
    have := m.length.isLt
    congr 1
    omega
  · exact ⟨_, if_neg h, by simp⟩
  · exact ⟨_, if_neg h, by simp⟩
  · exact ⟨if_pos h, if_pos h⟩
  · unfold ofBool; split <;> simp_all [BitVec.ult]
  · unfold ofBool; split <;> simp_all [BitVec.ult]
  · unfold ofBool; split <;> simp_all

/-- C43 fails: sums are documented to be of $normal and $assert, and assertions to write 1 if they do not hold; `Diff` and
`Data` panic. -/
theorem math_docs_fails (env : Env) : ∃ m : M, m.normal = 1 ∧ m.assert = 2 ∧ math env 5 m = some 6 ∧
    math env 1 m = some 1 ∧ math env 4 m = none ∧ func env 4 m = none :=
  ⟨⟨0, 1, 5, 2, 0, fun _ => 0, fun _ => 0, []⟩, rfl, rfl, by rfl, by rfl, rfl, rfl⟩

/-- The number of bytes in the memory of a little-endian machine. -/
def leNat : List (BitVec 8) → Nat
  | [] => 0
  | b :: bs => b.toNat + 256 * leNat bs

theorem leNat_bytes (n : Nat) : ∀ k w : Nat,
    leNat ((List.range' k n).map (fun i => BitVec.ofNat 8 (w / 256 ^ i))) = w / 256 ^ k % 256 ^ n := by
  induction n with
  | zero => intro k w; simp [leNat, Nat.mod_one]
  | succ n ih =>
    intro k w
    rw [List.range'_succ, List.map_cons, leNat, ih (k + 1) w]
    have e : w / 256 ^ (k + 1) = w / 256 ^ k / 256 := by rw [Nat.pow_succ, Nat.div_div_eq_div_mul]
    rw [e, BitVec.toNat_ofNat]
    rw [show (256 : Nat) ^ (n + 1) = 256 * 256 ^ n by rw [Nat.pow_succ, Nat.mul_comm], Nat.mod_mul]

/-- Pushing one, two, four or eight bytes adds the lowest bytes of $normal to the last block, in the order of a
little-endian machine, and leaves the other blocks; without a block it panics. -/
theorem push_little_endian (n : Nat) (m : M) (b : List (BitVec 8)) (bs : List (List (BitVec 8)))
    (h : m.heap = b :: bs) : ∃ m' t, push n m = some m' ∧ m'.heap = (b ++ t) :: bs ∧ t.length = n ∧
      leNat t = m.normal.toNat % 256 ^ n := by
  refine ⟨_, (List.range n).map (byteOf m.normal), by simp only [push, h]; rfl, rfl, by simp, ?_⟩
  have : byteOf m.normal = fun i => BitVec.ofNat 8 (m.normal.toNat / 256 ^ i) := by
    funext i
    apply BitVec.eq_of_toNat_eq
    simp [byteOf, Nat.shiftRight_eq_div_pow, Nat.pow_mul]
  rw [this, List.range_eq_range', leNat_bytes n 0]
  simp

example : ∃ m', push 4 { start (fun _ => 0) with normal := 0x11223344#64, heap := [[0xff#8]] } = some m' ∧
    m'.heap = [[0xff#8, 0x44#8, 0x33#8, 0x22#8, 0x11#8]] := ⟨_, rfl, by decide +kernel⟩

end Verif.Vm
