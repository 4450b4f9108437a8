import Verif.Vm.StrSpec
import Verif.Vm.Props
import Mathlib.Data.List.TakeWhile
/-!
# C189: strings arrive as C strings
-/
namespace Verif.Vm.Str
open Verif.Abi Verif.Vm.Str.Spec

theorem bytes_eq {mem : Mem} {p : Nat} {bs : List (BitVec 8)} (h : Bytes mem p bs) : bytes mem p bs.length = bs := by
  apply List.ext_getElem
  · simp [bytes]
  · intro i h1 h2
    simp [bytes, h i h2]

theorem reads_unique {mem : Mem} {p : Nat} {a b : List (BitVec 8)} (ha : Reads mem p a) (hb : Reads mem p b) : a = b := by
  have key : ∀ {a b : List (BitVec 8)}, Reads mem p a → Reads mem p b → a.length ≤ b.length := by
    intro a b ha hb
    by_contra hlt
    have hlt : b.length < a.length := by omega
    have h1 := ha.1 b.length hlt
    rw [hb.2.1] at h1
    exact ha.2.2 (h1 ▸ List.getElem_mem hlt)
  have hl : a.length = b.length := Nat.le_antisymm (key ha hb) (key hb ha)
  apply List.ext_getElem hl
  intro i h1 h2
  rw [← ha.1 i h1, ← hb.1 i h2]

/-- The part of a string before its first 0. -/
def upto (bs : List (BitVec 8)) : List (BitVec 8) := bs.takeWhile (· != 0)

theorem upto_length (bs : List (BitVec 8)) : (upto bs).length ≤ bs.length := by
  unfold upto; exact (List.takeWhile_prefix _).length_le

theorem upto_none {bs : List (BitVec 8)} (h : 0 ∉ bs) : upto bs = bs := by
  unfold upto
  rw [List.takeWhile_eq_self_iff]
  intro x hx
  simp only [bne_iff_ne]
  rintro rfl; exact h hx

/-- Bytes with a 0 among them are read up to it. -/
theorem reads_upto {mem : Mem} {p : Nat} {bs : List (BitVec 8)} (h : Bytes mem p bs) (h0 : 0 ∈ bs) :
    Reads mem p (upto bs) ∧ (upto bs).length < bs.length := by
  have hsplit := List.takeWhile_append_dropWhile (p := (· != (0 : BitVec 8))) (l := bs)
  have hne : bs.dropWhile (· != 0) ≠ [] := by
    intro e
    rw [List.dropWhile_eq_nil_iff] at e
    simpa using e 0 h0
  have hlt : (upto bs).length < bs.length := by
    have := congrArg List.length hsplit
    rw [List.length_append] at this
    have := List.length_pos_iff.2 hne
    unfold upto; omega
  refine ⟨⟨fun i hi => ?_, ?_, ?_⟩, hlt⟩
  · have hi' : i < bs.length := by omega
    rw [h i hi']
    exact ((List.takeWhile_prefix _).getElem hi).symm
  · rw [h _ hlt]
    have h1 : bs[(upto bs).length] = (bs.dropWhile (· != 0))[0]'(List.length_pos_iff.2 hne) := by
      have : bs[(upto bs).length] = (bs.takeWhile (· != 0) ++ bs.dropWhile (· != 0))[(upto bs).length]'(by rw [hsplit]; exact hlt) := by
        congr 1; exact hsplit.symm
      rw [this, List.getElem_append_right (by simp [upto])]
      simp [upto]
    rw [h1]
    have := List.head_dropWhile_not (· != (0 : BitVec 8)) hne
    rw [List.head_eq_getElem] at this
    simpa using this
  · intro hm
    have := List.mem_takeWhile_imp hm
    simp at this

/-- What `StringMake` makes of a string that is not empty. -/
theorem stringMake_reads (gap : Nat → Nat) (s : S) (bs : List (BitVec 8)) (hne : bs ≠ [])
    (hg : GoString s.mem s.next s.m.normal s.m.length bs) :
    ∃ q, (stringMake gap s).m = { s.m with normal := BitVec.ofNat 64 q } ∧ s.next ≤ (stringMake gap s).next ∧
      (∀ a, a < s.next → (stringMake gap s).mem a = s.mem a) ∧ q + (upto bs).length < (stringMake gap s).next ∧
      Reads (stringMake gap s).mem q (upto bs) := by
  obtain ⟨hn, hb, hle⟩ := hg
  have hpos : 0 < bs.length := List.length_pos_iff.2 hne
  have he := bytes_eq hb
  unfold stringMake
  simp only [hn, he]
  by_cases hlast : bs.getLast? = some 0
  · rw [if_neg (fun h => h.2 hlast)]
    have h0 : (0 : BitVec 8) ∈ bs := List.mem_of_getLast? hlast
    obtain ⟨hr, hlt⟩ := reads_upto hb h0
    refine ⟨s.m.normal.toNat, by simp, Nat.le_refl _, fun _ _ => rfl, by omega, hr⟩
  · rw [if_pos ⟨hpos, hlast⟩]
    have hb' : Bytes (write s.mem (s.next + gap s.next) (bs ++ [0])) (s.next + gap s.next) (bs ++ [0]) := by
      intro i hi
      unfold write
      rw [if_pos (by omega), List.getD_eq_getElem?_getD, Nat.add_sub_cancel_left, List.getElem?_eq_getElem hi]
      rfl
    obtain ⟨hr, hlt⟩ := reads_upto hb' (by simp)
    have hu : upto (bs ++ [0]) = upto bs := by
      unfold upto
      by_cases h0 : (0 : BitVec 8) ∈ bs
      · rw [List.takeWhile_append, if_neg]
        intro e
        have := (List.takeWhile_prefix (· != (0 : BitVec 8)) (l := bs)).eq_of_length e
        rw [List.takeWhile_eq_self_iff] at this
        simpa using this 0 h0
      · have := upto_none h0
        unfold upto at this
        rw [List.takeWhile_append, if_pos (by rw [this]), this]; simp
    rw [hu] at hr hlt
    refine ⟨s.next + gap s.next, rfl, by simp only; omega, ?_, ?_, hr⟩
    · intro a ha
      simp only [write]
      rw [if_neg (by omega)]
    · have := upto_length bs
      simp only; omega

/-! ## Programs -/

/-- The instructions one after another. -/
def stepAll (w : World) : List (BitVec 8) → S → Option S
  | [], s => some s
  | op :: ops, s => (step w op s).bind (stepAll w ops)

theorem stepAll_append (w : World) (a b : List (BitVec 8)) : ∀ s,
    stepAll w (a ++ b) s = (stepAll w a s).bind (stepAll w b) := by
  induction a with
  | nil => intro s; rfl
  | cons op ops ih =>
    intro s
    simp only [List.cons_append, stepAll]
    cases step w op s with
    | none => rfl
    | some m' => exact ih m'

/-- Instructions that only move values. -/
def Mv (op : BitVec 8) : Prop := (decode op).1 = .load ∨ (decode op).1 = .move ∨ decode op = (.func, 6)

theorem Mv.plain {op : BitVec 8} (h : Mv op) : Plain op := by
  rcases h with h | h | h
  · exact .inl h
  · exact .inr (.inl h)
  · exact .inr (.inr (.inl h))

theorem step_mv (w : World) {op : BitVec 8} (h : Mv op) (s : S) :
    step w op s = (exec w.env op s.m).map fun m => { s with m := m } := by
  unfold step
  rw [if_neg, if_neg]
  · intro e; rcases h with h | h | h <;> rw [e] at h <;> simp at h
  · intro e; rcases h with h | h | h <;> rw [e] at h <;> simp at h

theorem stepAll_mv (w : World) : ∀ (ops : List (BitVec 8)), (∀ o ∈ ops, Mv o) → ∀ s,
    stepAll w ops s = (execAll w.env ops s.m).map fun m => { s with m := m }
  | [], _, s => rfl
  | op :: ops, h, s => by
    simp only [stepAll, execAll, step_mv w (h op (List.mem_cons_self ..))]
    cases exec w.env op s.m with
    | none => rfl
    | some m =>
      simp only [Option.map_some, Option.bind_some]
      exact stepAll_mv w ops (fun o ho => h o (List.mem_cons_of_mem _ ho)) _

/-- Instructions that leave the program counter alone. -/
def Calm (w : World) (op : BitVec 8) : Prop :=
  ∀ (s : S) (p : Nat), step w op { s with m := { s.m with pc := p } } =
    (step w op s).map (fun s' => { s' with m := { s'.m with pc := p } })

theorem calm_mv (w : World) {op : BitVec 8} (h : Mv op) : Calm w op := by
  intro s p
  rw [step_mv w h, step_mv w h, exec_plain_pc w.env op h.plain]
  cases exec w.env op s.m <;> rfl

theorem calm_call (w : World) : Calm w (new .func 2) := by
  intro s p
  simp [step, decode_new .func 2 (by omega)]

theorem calm_make (w : World) : Calm w (new .func 30) := by
  intro s p
  simp only [step, decode_new .func 30 (by omega), if_true, Option.map_some, Option.some.injEq]
  unfold stringMake
  simp only
  split <;> rfl

theorem loop_calm (w : World) (rest : List (BitVec 8)) : ∀ (pre : List (BitVec 8)) (s : S),
    (∀ op ∈ rest, Calm w op) → s.m.pc = pre.length →
    loop w (pre ++ rest) rest.length s =
      (stepAll w rest s).map (fun s' => { s' with m := { s'.m with pc := (pre ++ rest).length } }) := by
  have key : ∀ (ops : List (BitVec 8)) (s : S) (p q : Nat), (∀ op ∈ ops, Calm w op) →
      (stepAll w ops { s with m := { s.m with pc := p } }).map (fun s' => ({ s' with m := { s'.m with pc := q } } : S)) =
        (stepAll w ops s).map (fun s' => ({ s' with m := { s'.m with pc := q } } : S)) := by
    intro ops
    induction ops with
    | nil => intro s p q _; rfl
    | cons o os ih' =>
      intro s p q ho
      unfold stepAll
      rw [ho o (List.mem_cons_self ..) s p]
      cases step w o s with
      | none => rfl
      | some s2 =>
        simp only [Option.map_some, Option.bind_some]
        exact ih' s2 p q (fun o' ho' => ho o' (List.mem_cons_of_mem _ ho'))
  induction rest with
  | nil =>
    intro pre s _ hp
    simp only [List.append_nil, List.length_nil, loop, stepAll, Option.map_some]
    rw [if_pos (by omega), ← hp]
  | cons op ops ih =>
    intro pre s h hp
    have hop := h op (List.mem_cons_self ..)
    simp only [List.length_cons, loop, stepAll]
    have : (pre ++ op :: ops)[s.m.pc]? = some op := by rw [hp]; simp
    simp only [this]
    have e := hop s s.m.pc
    have e' : ({ s with m := { s.m with pc := s.m.pc } } : S) = s := rfl
    rw [e'] at e
    cases hx : step w op s with
    | none => rfl
    | some s' =>
      rw [hx] at e
      simp only [Option.map_some, Option.some.injEq] at e
      have hpc : s'.m.pc = pre.length := by rw [e, ← hp]
      simp only [Option.bind_some]
      have := ih (pre ++ [op]) { s' with m := { s'.m with pc := s'.m.pc + 1 } }
        (fun o ho => h o (List.mem_cons_of_mem _ ho)) (by simp [hpc])
      simp only [List.append_assoc, List.singleton_append] at this
      rw [this]
      exact key ops s' (s'.m.pc + 1) _ (fun o ho => h o (List.mem_cons_of_mem _ ho))

/-! ## Arguments -/

/-- The registers an argument goes to. -/
def Arg.dests (a : Arg) : List Nat := if a.str then (indices a.dst).getD [] else (moves [(a.src, a.dst)]).map Prod.snd

/-- Arguments that are compiled: values in as many registers on both sides, and strings in two registers for a pointer
in one. -/
def Arg.ok (env : Env) (a : Arg) : Prop :=
  if a.str then
    ∃ x y i j k, a.src = .multi (.cons x (.cons y .nil)) ∧ index x = some i ∧ index y = some j ∧ index a.dst = some k ∧
      env.avail i = true ∧ env.avail j = true ∧ env.avail k = true
  else Movable env (a.src, a.dst)

/-- A string argument is this string, not empty. -/
def Arg.holds (a : Arg) (reg : Nat → W) (mem : Mem) (next : Nat) : Prop :=
  a.str = true → ∀ i j, indices a.src = some [i, j] → ∃ bs, bs ≠ [] ∧ GoString mem next (reg i) (reg j) bs

/-- An argument was delivered: the registers of a value are those it had, and at the pointer of a string C reads the
string, up to its first 0. -/
def Arg.delivered (a : Arg) (reg : Nat → W) (mem : Mem) (next : Nat) (out : Nat → W) (mem' : Mem) (next' : Nat) : Prop :=
  if a.str then
    ∀ i j k, indices a.src = some [i, j] → index a.dst = some k → ∀ bs, GoString mem next (reg i) (reg j) bs →
      (out k).toNat + (upto bs).length < next' ∧ Reads mem' (out k).toNat (upto bs)
  else ∀ p ∈ moves [(a.src, a.dst)], out p.2 = reg p.1

theorem goString_same {mem : Mem} {next : Nat} {p n : W} {a b : List (BitVec 8)} (ha : GoString mem next p n a)
    (hb : GoString mem next p n b) : a = b := by
  have hl : a.length = b.length := by rw [← ha.1, hb.1]
  apply List.ext_getElem hl
  intro i h1 h2
  rw [← ha.2.1 i h1, ← hb.2.1 i h2]

theorem goString_mono {mem mem' : Mem} {next next' : Nat} {p n : W} {bs : List (BitVec 8)} (h : GoString mem next p n bs)
    (hn : next ≤ next') (hm : ∀ a, a < next → mem' a = mem a) : GoString mem' next' p n bs := by
  obtain ⟨h1, h2, h3⟩ := h
  exact ⟨h1, fun i hi => by rw [hm _ (by omega), h2 i hi], by omega⟩

theorem indices_quiet {l : Loc} {is : List Nat} (h : indices l = some is) :
    (∀ a, read l = some a → ∀ op ∈ a, Mv op) ∧ (∀ a, send l = some a → ∀ op ∈ a, Mv op) := by
  have ml : ∀ i, i < 32 → Mv (new .load i) := fun i hi => .inl (by rw [decode_new .load i hi])
  have mm : ∀ i, i < 32 → Mv (new .move i) := fun i hi => .inr (.inl (by rw [decode_new .move i hi]))
  have ms : Mv (new .func 6) := .inr (.inr (decode_new .func 6 (by omega)))
  rcases indices_cases h with ⟨i, hi, rfl⟩ | ⟨x, y, i, j, rfl, hi, hj, rfl⟩
  · obtain ⟨h1, h2, h3⟩ := index_read hi
    refine ⟨fun a ha op ho => ?_, fun a ha op ho => ?_⟩
    · rw [h2] at ha; cases ha; rw [List.mem_singleton.1 ho]; exact ml i h1
    · rw [h3] at ha; cases ha; rw [List.mem_singleton.1 ho]; exact mm i h1
  · obtain ⟨h1, h2, h3⟩ := index_read hi
    obtain ⟨k1, k2, k3⟩ := index_read hj
    refine ⟨fun a ha op ho => ?_, fun a ha op ho => ?_⟩
    · have e : read (.multi (.cons x (.cons y .nil))) = some [new .load j, new .func 6, new .load i] := by
        simp [read, readTwo, h2, k2]
      rw [e] at ha; cases ha
      simp only [List.mem_cons, List.not_mem_nil, or_false] at ho
      rcases ho with rfl | rfl | rfl
      · exact ml j k1
      · exact ms
      · exact ml i h1
    · have e : send (.multi (.cons x (.cons y .nil))) = some [new .move i, new .func 6, new .move j] := by
        simp [send, sendTwo, h3, k3]
      rw [e] at ha; cases ha
      simp only [List.mem_cons, List.not_mem_nil, or_false] at ho
      rcases ho with rfl | rfl | rfl
      · exact mm i h1
      · exact ms
      · exact mm j k1

/-- What one argument's instructions do. -/
theorem one_arg (w : World) (a : Arg) (ha : a.ok w.env) (hn : a.dests.Nodup) :
    ∃ r t, read a.src = some r ∧ send a.dst = some t ∧
      (∀ op ∈ r ++ (if a.str then [new .func 30] else []) ++ t, Calm w op) ∧
      ∀ s : S, a.holds s.m.reg s.mem s.next →
        ∃ s', stepAll w (r ++ (if a.str then [new .func 30] else []) ++ t) s = some s' ∧ s'.m.reg = s.m.reg ∧
          s.next ≤ s'.next ∧ (∀ q, q < s.next → s'.mem q = s.mem q) ∧
          (s'.next ≤ 2 ^ 64 → a.delivered s.m.reg s.mem s.next s'.m.out s'.mem s'.next) ∧
          ∀ j, j ∉ a.dests → s'.m.out j = s.m.out j := by
  unfold Arg.ok at ha
  cases hs : a.str with
  | false =>
    simp only [hs, Bool.false_eq_true, if_false] at ha ⊢
    obtain ⟨r, t, hr, ht, hpl, hex⟩ := exec_pair w.env a.src a.dst ha
    obtain ⟨is, js, hi, hj, _⟩ := ha
    have hmv : ∀ op ∈ r ++ t, Mv op := by
      intro op ho
      rcases List.mem_append.1 ho with h | h
      · exact (indices_quiet hi).1 r hr op h
      · exact (indices_quiet hj).2 t ht op h
    refine ⟨r, t, hr, ht, ?_, ?_⟩
    · simp only [List.append_nil]; exact fun op ho => calm_mv w (hmv op ho)
    · intro s _
      obtain ⟨m', e1, e2, e3, e4⟩ := hex s.m
      have hd : a.dests = (moves [(a.src, a.dst)]).map Prod.snd := by simp [Arg.dests, hs]
      refine ⟨{ s with m := m' }, ?_, e2, Nat.le_refl _, fun _ _ => rfl, fun _ => ?_, ?_⟩
      · rw [List.append_nil, stepAll_mv w _ hmv, e1]; rfl
      · rw [Arg.delivered, hs]; simp only [Bool.false_eq_true, if_false]; exact e3 (hd ▸ hn)
      · rw [hd]; exact e4
  | true =>
    simp only [hs, if_true] at ha ⊢
    obtain ⟨x, y, i, j, k, hsrc, hi, hj, hk, ai, aj, ak⟩ := ha
    obtain ⟨i1, i2, _⟩ := index_read hi
    obtain ⟨j1, j2, _⟩ := index_read hj
    obtain ⟨k1, _, k2⟩ := index_read hk
    have hidx : indices a.src = some [i, j] := by rw [hsrc]; simp [indices, hi, hj]
    have hread : read a.src = some [new .load j, new .func 6, new .load i] := by
      rw [hsrc]; simp [read, readTwo, i2, j2]
    have hkd : indices a.dst = some [k] := by
      obtain ⟨w', hw'⟩ := index_hw hk
      rw [hw'] at hk ⊢
      simp [indices, hk]
    have hd : a.dests = [k] := by simp [Arg.dests, hs, hkd]
    refine ⟨_, _, hread, k2, ?_, ?_⟩
    · intro op ho
      simp only [List.cons_append, List.nil_append, List.mem_cons, List.not_mem_nil, or_false] at ho
      rcases ho with rfl | rfl | rfl | rfl | rfl
      · exact calm_mv w (.inl (by rw [decode_new .load j j1]))
      · exact calm_mv w (.inr (.inr (decode_new .func 6 (by omega))))
      · exact calm_mv w (.inl (by rw [decode_new .load i i1]))
      · exact calm_make w
      · exact calm_mv w (.inr (.inl (by rw [decode_new .move k k1])))
    · intro s hh
      obtain ⟨bs, hne, hg⟩ := hh hs i j hidx
      let m1 : M := { s.m with normal := s.m.reg i, length := s.m.reg j }
      obtain ⟨q, q1, q2, q3, q4, q5⟩ := stringMake_reads w.gap { s with m := m1 } bs hne hg
      let s1 := stringMake w.gap { s with m := m1 }
      have hmvs : ∀ o ∈ [new .load j, new .func 6, new .load i], Mv o :=
        (indices_quiet hidx).1 _ hread
      have e1 : stepAll w [new .load j, new .func 6, new .load i] s = some { s with m := m1 } := by
        rw [stepAll_mv w _ hmvs]
        simp only [execAll, exec_load w.env j j1 aj, exec_swap, exec_load w.env i i1 ai, Option.bind_some, Option.map_some]
        rfl
      have e2 : stepAll w [new .func 30] { s with m := m1 } = some s1 := by
        simp [stepAll, step, decode_new .func 30 (by omega), s1]
      have e3 : stepAll w [new .move k] s1 = some { s1 with m := { s1.m with out := update s1.m.out k s1.m.normal } } := by
        rw [stepAll_mv w _ (by intro o ho; rw [List.mem_singleton.1 ho]; exact .inr (.inl (by rw [decode_new .move k k1])))]
        simp only [execAll, exec_move w.env k k1 ak, Option.bind_some, Option.map_some]
      have hm1 : s1.m = { m1 with normal := BitVec.ofNat 64 q } := q1
      refine ⟨{ s1 with m := { s1.m with out := update s1.m.out k s1.m.normal } },
        by rw [stepAll_append, stepAll_append, e1, Option.bind_some, e2, Option.bind_some, e3], ?_, q2, q3, ?_, ?_⟩
      · rw [hm1]
      · intro hle
        rw [Arg.delivered, hs, if_pos rfl]
        intro i' j' k' h1 h2 bs' hg'
        rw [hidx] at h1; cases h1
        rw [hk] at h2; cases h2
        rw [goString_same hg' hg]
        have hq : q < 2 ^ 64 := by
          have h64 : (stringMake w.gap { s with m := m1 }).next ≤ 2 ^ 64 := hle
          omega
        have hto : (update s1.m.out k s1.m.normal k).toNat = q := by
          rw [hm1]; simp [update, Nat.mod_eq_of_lt hq]
        simp only
        rw [hto]
        exact ⟨q4, q5⟩
      · intro j' hj'
        rw [hd, List.mem_singleton] at hj'
        simp only [update, if_neg hj']
        rw [hm1]

theorem equals_str {x y d : Loc} {k : Nat} (h : index d = some k) :
    (Loc.multi (.cons x (.cons y .nil))).equals d = some false := by
  obtain ⟨w, rfl⟩ := index_hw h
  rfl

/-- The instructions for all the arguments. -/
theorem args_exec (w : World) : ∀ (l : List Arg), (∀ a ∈ l, a.ok w.env) → (l.flatMap Arg.dests).Nodup →
    ∃ text, compileArgs l = some text ∧ (∀ op ∈ text, Calm w op) ∧
      ∀ s : S, (∀ j ∈ l.flatMap Arg.dests, s.m.out j = s.m.reg j) → (∀ a ∈ l, a.holds s.m.reg s.mem s.next) →
        ∃ s', stepAll w text s = some s' ∧ s'.m.reg = s.m.reg ∧ s.next ≤ s'.next ∧
          (∀ q, q < s.next → s'.mem q = s.mem q) ∧
          (s'.next ≤ 2 ^ 64 → ∀ a ∈ l, a.delivered s.m.reg s.mem s.next s'.m.out s'.mem s'.next) ∧
          ∀ j, j ∉ l.flatMap Arg.dests → s'.m.out j = s.m.out j
  | [], _, _ => ⟨[], rfl, by simp, fun s _ _ => ⟨s, rfl, rfl, Nat.le_refl _, fun _ _ => rfl, by simp, fun _ _ => rfl⟩⟩
  | a :: l, hok, hnd => by
    rw [List.flatMap_cons] at hnd
    obtain ⟨hn1, hn2, hn3⟩ := List.nodup_append.1 hnd
    obtain ⟨rest, er, cr, ex⟩ := args_exec w l (fun b hb => hok b (List.mem_cons_of_mem _ hb)) hn2
    have ha := hok a (List.mem_cons_self ..)
    obtain ⟨r, t, hr, ht, hc, hex⟩ := one_arg w a ha hn1
    -- a value that is in its place already
    by_cases hskip : a.str = false ∧ a.src.equals a.dst = some true
    · refine ⟨rest, by simp [compileArgs, er, hskip.1, hskip.2], cr, ?_⟩
      intro s h1 h2
      obtain ⟨s', e1, e2, e3, e4, e5, e6⟩ := ex s (fun j hj => h1 j (by rw [List.flatMap_cons]; exact List.mem_append_right _ hj))
        (fun b hb => h2 b (List.mem_cons_of_mem _ hb))
      refine ⟨s', e1, e2, e3, e4, ?_, ?_⟩
      · intro hle b hb
        rcases List.mem_cons.1 hb with rfl | hb
        · rw [Arg.delivered, hskip.1]
          simp only [Bool.false_eq_true, if_false]
          intro p hp
          have heq : b.src = b.dst := equals_eq hskip.2
          have hself : p.1 = p.2 := moves_self b.dst p (by rw [heq] at hp; exact hp)
          have hmem : p.2 ∈ b.dests := by
            rw [Arg.dests, hskip.1]; exact List.mem_map_of_mem hp
          have hno : p.2 ∉ l.flatMap Arg.dests := fun hm => hn3 _ hmem _ hm rfl
          rw [e6 _ hno, h1 _ (by rw [List.flatMap_cons]; exact List.mem_append_left _ hmem), hself]
        · exact e5 hle b hb
      · intro j hj
        rw [List.flatMap_cons, List.mem_append, not_or] at hj
        exact e6 j hj.2
    · have heq : ∃ b, a.src.equals a.dst = some b ∧ (b && !a.str) = false := by
        cases hs : a.str with
        | false =>
          have ha' := ha
          unfold Arg.ok at ha'
          simp only [hs, Bool.false_eq_true, if_false] at ha'
          obtain ⟨b, hb⟩ := equals_isSome ha'
          refine ⟨b, hb, ?_⟩
          cases b
          · rfl
          · exact absurd ⟨hs, hb⟩ hskip
        | true =>
          have ha' := ha
          unfold Arg.ok at ha'
          simp only [hs, if_true] at ha'
          obtain ⟨x, y, i, j, k, hsrc, _, _, hk, _⟩ := ha'
          exact ⟨false, by rw [hsrc]; exact equals_str hk, rfl⟩
      obtain ⟨b, hb1, hb2⟩ := heq
      refine ⟨r ++ (if a.str then [new .func 30] else []) ++ t ++ rest, ?_, ?_, ?_⟩
      · simp only [compileArgs, hb1, er, hr, ht, Option.bind_eq_bind, Option.bind_some, hb2, Bool.false_eq_true, if_false]
      · intro op ho
        rcases List.mem_append.1 ho with h | h
        · exact hc op h
        · exact cr op h
      · intro s h1 h2
        obtain ⟨s1, e1, e2, e3, e4, e5, e6⟩ := hex s (h2 a (List.mem_cons_self ..))
        have hh : ∀ b ∈ l, b.holds s1.m.reg s1.mem s1.next := by
          intro b hb hs i j hij
          obtain ⟨bs, hne, hg⟩ := h2 b (List.mem_cons_of_mem _ hb) hs i j hij
          exact ⟨bs, hne, by rw [e2]; exact goString_mono hg e3 e4⟩
        obtain ⟨s2, f1, f2, f3, f4, f5, f6⟩ := ex s1 (by
          intro j hj
          have hno : j ∉ a.dests := fun hm => hn3 _ hm _ hj rfl
          rw [e6 j hno, e2, h1 j (by rw [List.flatMap_cons]; exact List.mem_append_right _ hj)]) hh
        refine ⟨s2, by rw [stepAll_append, e1, Option.bind_some, f1], by rw [f2, e2], by omega, ?_, ?_, ?_⟩
        · intro q hq
          rw [f4 q (by omega), e4 q hq]
        · intro hle b hb
          rcases List.mem_cons.1 hb with rfl | hb
          · have hd := e5 (by omega)
            unfold Arg.delivered at hd ⊢
            cases hs : b.str with
            | false =>
              simp only [hs, Bool.false_eq_true, if_false] at hd ⊢
              intro p hp
              have hmem : p.2 ∈ b.dests := by rw [Arg.dests, hs]; exact List.mem_map_of_mem hp
              rw [f6 _ (fun hm => hn3 _ hmem _ hm rfl), hd p hp]
            | true =>
              simp only [hs, if_true] at hd ⊢
              intro i j k hij hk bs hg
              obtain ⟨d1, d2⟩ := hd i j k hij hk bs hg
              have hkd : k ∈ b.dests := by
                have ha' := ha
                unfold Arg.ok at ha'
                simp only [hs, if_true] at ha'
                obtain ⟨x, y, i', j', k', hsrc, _, _, hk', _⟩ := ha'
                rw [hk] at hk'; cases hk'
                have : indices b.dst = some [k] := by
                  obtain ⟨w', hw'⟩ := index_hw hk
                  rw [hw'] at hk ⊢
                  simp [indices, hk]
                simp [Arg.dests, hs, this]
              rw [f6 k (fun hm => hn3 _ hkd _ hm rfl)]
              refine ⟨by omega, fun n hn => ?_, ?_, d2.2.2⟩
              · rw [f4 _ (by omega), d2.1 n hn]
              · rw [f4 _ (by omega), d2.2.1]
          · have hd := f5 hle b hb
            unfold Arg.delivered at hd ⊢
            cases hs : b.str with
            | false =>
              simp only [hs, Bool.false_eq_true, if_false] at hd ⊢
              rw [e2] at hd; exact hd
            | true =>
              simp only [hs, if_true] at hd ⊢
              intro i j k hij hk bs hg
              exact hd i j k hij hk bs (by rw [e2]; exact goString_mono hg e3 e4)
        · intro j hj
          rw [List.flatMap_cons, List.mem_append, not_or] at hj
          rw [f6 j hj.2, e6 j hj.1]

/-- **C189**, partial: a compiled call with values and strings that are not empty calls the function with every value in
its place and, for every string, a pointer at which C reads the string up to its first 0, if memory suffices. The
registers of no argument are as they were. -/
theorem strings_arrive_partial (w : World) (l : List Arg) (hok : ∀ a ∈ l, a.ok w.env)
    (hn : (l.flatMap Arg.dests).Nodup) (args : Nat → W) (mem : Mem) (next : Nat)
    (hs : ∀ a ∈ l, a.holds args mem next) :
    ∃ text, compile l = some text ∧ ∃ (callee : Nat → W) (mem' : Mem) (next' : Nat),
      (∃ m : M, loop w text text.length (begin args mem next) =
        some ⟨{ m with reg := w.call callee mem', out := w.call callee mem' }, mem', next'⟩) ∧
      (∀ q, q < next → mem' q = mem q) ∧
      (next' ≤ 2 ^ 64 →
        (∀ a ∈ l, a.str = false → ∀ p ∈ moves [(a.src, a.dst)], callee p.2 = args p.1) ∧
        ∀ a ∈ l, a.str = true → ∀ i j k bs, indices a.src = some [i, j] → index a.dst = some k →
          GoString mem next (args i) (args j) bs → Reads mem' (callee k).toNat (upto bs)) ∧
      ∀ j, j ∉ l.flatMap Arg.dests → callee j = args j := by
  obtain ⟨text, e, hc, ex⟩ := args_exec w l hok hn
  obtain ⟨s', e1, e2, e3, e4, e5, e6⟩ := ex (begin args mem next) (fun _ _ => rfl) hs
  refine ⟨text ++ [new .func 2], by simp [compile, e], s'.m.out, s'.mem, s'.next,
    ⟨{ s'.m with pc := (text ++ [new .func 2]).length }, ?_⟩, e4, ?_, e6⟩
  · have := loop_calm w (text ++ [new .func 2]) [] (begin args mem next) (by
      intro op ho
      rcases List.mem_append.1 ho with h | h
      · exact hc op h
      · rw [List.mem_singleton.1 h]; exact calm_call w) rfl
    rw [List.nil_append] at this
    rw [this, stepAll_append, e1, Option.bind_some]
    simp [stepAll, step, decode_new .func 2 (by omega)]
  · intro hle
    refine ⟨fun a ha hs p hp => ?_, fun a ha hs i j k bs h1 h2 hg => ?_⟩
    · have := e5 hle a ha
      rw [Arg.delivered, hs] at this
      exact this p hp
    · have := e5 hle a ha
      rw [Arg.delivered, hs] at this
      exact (this i j k h1 h2 bs hg).2

/-- A string without a 0 is read as it is. -/
theorem read_as_it_is {bs : List (BitVec 8)} (h : 0 ∉ bs) : upto bs = bs := upto_none h

/-- Two arguments: a string in R0 and R1 for a pointer in R1, and a number in R2 for R0. -/
def exArgs : List Arg :=
  [⟨.multi (.cons (.hw (.reg 0)) (.cons (.hw (.reg 1)) .nil)), .hw (.reg 1), true⟩, ⟨.hw (.reg 2), .hw (.reg 0), false⟩]

/-- A world on arm64 that says nothing about the function. -/
def exWorld : World :=
  ⟨⟨availArm64, id, fun _ _ _ => 0, fun _ _ => none, fun _ _ _ => none⟩, fun r _ => r, fun _ => 3⟩

/-- Memory with `ab` at 4. -/
def exMem : Mem := fun a => if a = 4 then 97 else if a = 5 then 98 else 99

/-- The registers: a pointer, a length, a number. -/
def exRegs : Nat → W := fun n => if n = 0 then 4 else if n = 1 then 2 else 7

example : (∀ a ∈ exArgs, a.ok exWorld.env) ∧ (exArgs.flatMap Arg.dests).Nodup ∧
    (∀ a ∈ exArgs, a.holds exRegs exMem 10) := by
  refine ⟨?_, by decide, ?_⟩
  · intro a ha
    simp only [exArgs, List.mem_cons, List.not_mem_nil, or_false] at ha
    rcases ha with rfl | rfl
    · exact ⟨_, _, 0, 1, 1, rfl, rfl, rfl, rfl, rfl, rfl, rfl⟩
    · exact ⟨[2], [0], rfl, rfl, rfl, by simp [exWorld, availArm64], by simp [exWorld, availArm64]⟩
  · intro a ha hs i j h
    simp only [exArgs, List.mem_cons, List.not_mem_nil, or_false] at ha
    rcases ha with rfl | rfl
    · have e : indices (.multi (.cons (.hw (.reg 0)) (.cons (.hw (.reg 1)) .nil))) = some [0, 1] := rfl
      rw [e] at h; cases h
      refine ⟨[97, 98], by simp, rfl, ?_, by decide⟩
      intro i hi
      have : i = 0 ∨ i = 1 := by simp at hi; omega
      rcases this with rfl | rfl <;> rfl
    · cases hs

example : ∃ text, compile exArgs = some text ∧
    (loop exWorld text text.length (begin exRegs exMem 10)).map
      (fun s => (s.m.out 0, s.m.out 1, bytes s.mem 13 4)) = some (7, 13, [97, 98, 0, 99]) :=
  ⟨_, rfl, by decide +kernel⟩

/-- **C189** fails for the empty string: its pointer is passed on as it is, and C reads what happens to be there. -/
theorem empty_string_fails : ∃ (args : Nat → W) (mem : Mem) (text : List (BitVec 8)) (s : S),
    compile exArgs = some text ∧ GoString mem 10 (args 0) (args 1) [] ∧
    loop exWorld text text.length (begin args mem 10) = some s ∧ Reads s.mem (s.m.out 1).toNat [97, 98] := by
  let args : Nat → W := fun n => if n = 0 then 4 else 0
  let mem : Mem := fun a => if a = 4 then 97 else if a = 5 then 98 else 0
  obtain ⟨text, ht⟩ : ∃ text, text = (compile exArgs).getD [] := ⟨_, rfl⟩
  have h : ((loop exWorld text text.length (begin args mem 10)).map
      fun s => bytes s.mem (s.m.out 1).toNat 3) = some [97, 98, 0] := by
    subst ht; decide +kernel
  cases e : loop exWorld text text.length (begin args mem 10) with
  | none => rw [e] at h; cases h
  | some s =>
    rw [e, Option.map_some, Option.some.injEq] at h
    have h' : [s.mem ((s.m.out 1).toNat + 0), s.mem ((s.m.out 1).toNat + 1), s.mem ((s.m.out 1).toNat + 2)] =
      [97, 98, 0] := h
    injection h' with h0 h'
    injection h' with h1 h'
    injection h' with h2 _
    refine ⟨args, mem, text, s, by subst ht; rfl, ⟨rfl, fun i h => by simp at h, by decide⟩, e, fun i hi => ?_, h2,
      by decide⟩
    have : i = 0 ∨ i = 1 := by simp at hi; omega
    rcases this with rfl | rfl
    · exact h0
    · exact h1

/-! ## The other way -/

/-- **C189** (other way): `StringSize` finds the length of a string that C wrote. -/
theorem size_of_c_string {mem : Mem} {p : Nat} {bs : List (BitVec 8)} (h : Reads mem p bs) :
    ∀ fuel, stringSize mem p fuel 0 = if bs.length < fuel then some bs.length else none := by
  have key : ∀ (fuel i : Nat), i ≤ bs.length →
      stringSize mem p fuel i = if bs.length - i < fuel then some bs.length else none := by
    intro fuel
    induction fuel with
    | zero => intro i _; simp [stringSize]
    | succ f ih =>
      intro i hi
      unfold stringSize
      by_cases e : i = bs.length
      · subst e; rw [if_pos h.2.1, if_pos (by omega)]
      · have hlt : i < bs.length := by omega
        have h1 := h.1 i hlt
        have : mem (p + i) ≠ 0 := by rw [h1]; intro e0; exact h.2.2 (e0 ▸ List.getElem_mem hlt)
        rw [if_neg this, ih (i + 1) (by omega)]
        by_cases c : bs.length - i < f + 1
        · rw [if_pos c, if_pos (by omega)]
        · rw [if_neg c, if_neg (by omega)]
  intro fuel
  simpa using key fuel 0 (by omega)

/-- **C189** (other way): `StringCopy` copies the bytes of a string that C wrote. -/
theorem copy_of_c_string {mem : Mem} {p : Nat} {bs : List (BitVec 8)} (h : Reads mem p bs) (fuel : Nat)
    (hf : bs.length < fuel) : stringCopy mem p fuel 0 = some bs := by
  have key : ∀ (fuel i : Nat), i ≤ bs.length → bs.length - i < fuel → stringCopy mem p fuel i = some (bs.drop i) := by
    intro fuel
    induction fuel with
    | zero => intro i _ h; omega
    | succ f ih =>
      intro i hi hf
      unfold stringCopy
      by_cases e : i = bs.length
      · subst e; rw [if_pos h.2.1]; simp
      · have hlt : i < bs.length := by omega
        have h1 := h.1 i hlt
        have : mem (p + i) ≠ 0 := by rw [h1]; intro e0; exact h.2.2 (e0 ▸ List.getElem_mem hlt)
        rw [if_neg this, ih (i + 1) (by omega) (by omega), h1, Option.map_some]
        simp
  simpa using key fuel 0 (by omega) (by omega)

example : Reads exMem 4 [97, 98] → False := fun h => absurd h.2.1 (by decide)
example : Reads (fun a => if a = 4 then 97 else if a = 5 then 98 else 0) 4 [97, 98] := by
  refine ⟨fun i hi => ?_, by decide, by decide⟩
  have : i = 0 ∨ i = 1 := by simp at hi; omega
  rcases this with rfl | rfl <;> rfl

end Verif.Vm.Str
