import Verif.Ffi.BoxModel

/-!
# C232: slices, variables, channels and maps by handle are Go's
-/
namespace Verif.Ffi.Box

open Verif.Ffi.Go (Stmt Out)

/-- What a handle stands for is the value of Go's. -/
private inductive Same (n : Nat) : Go.Val → RVal → Prop where
  | pointer (a : Nat) (h : a < n) : Same n (.pointer a) (.var a)
  | slice (k : Kind) (b l c : Nat) (h : l ≤ c) (hb : b + c ≤ n) (hc : c < 2 ^ 32) :
      Same n (.slice k (List.range' b c) l) (.slice k b l c)
  | chan (c : Nat) : Same n (.chan c) (.chan c)
  | map (m : Nat) : Same n (.map m) (.map m)

private theorem Same.mono {n m : Nat} {v : Go.Val} {r : RVal} (h : Same n v r) (hm : n ≤ m) : Same m v r := by
  cases h with
  | pointer a h => exact .pointer a (by omega)
  | slice k b l c h hb hc => exact .slice k b l c h (by omega) hc
  | chan c => exact .chan c
  | map m => exact .map m

private structure Sim (g : Go.State) (z : State) : Prop where
  next : z.next = g.vars.length
  mem : ∀ a, a < g.vars.length → g.vars[a]? = some (z.mem a)
  len : g.env.length = z.tab.length
  tab : ∀ (i : Nat) v r, g.env[i]? = some v → z.tab[i]? = some r → Same g.vars.length v r
  chans : ∀ i : Nat, z.chans[i]? = (g.chans[i]?).map fun (c : Go.Chan) => Chan.mk c.kind c.cap c.queue c.closed
  clen : z.chans.length = g.chans.length
  empty : ∀ c ∈ g.chans, c.queue = []
  maps : ∀ i : Nat, z.maps[i]? = (g.maps[i]?).map fun (m : Go.Map) => Map.mk m.kind m.keys
  mlen : z.maps.length = g.maps.length
  mempty : ∀ m ∈ g.maps, m.keys = []

/-- What a name of Go's is as a handle. -/
private theorem Sim.get {g : Go.State} {z : State} (h : Sim g z) (x : Nat) :
    (g.val x = none ∧ z.get x = none) ∨
    ∃ v r, g.val x = some v ∧ z.get x = some r ∧ Same g.vars.length v r := by
  unfold Go.State.val State.get
  split
  · exact .inl ⟨rfl, rfl⟩
  · cases hv : g.env[x - 1]? with
    | none =>
      rw [List.getElem?_eq_none_iff] at hv
      exact .inl ⟨rfl, List.getElem?_eq_none_iff.2 (by have := h.len; omega)⟩
    | some v =>
      have hlt := (List.getElem?_eq_some_iff.1 hv).1
      have hr : z.tab[x - 1]? = some (z.tab[x - 1]'(by have := h.len; omega)) := List.getElem?_eq_getElem _
      exact .inr ⟨v, _, rfl, hr, h.tab _ _ _ hv hr⟩

/-- A new value keeps them alike. -/
private theorem Sim.push {g : Go.State} {z : State} (h : Sim g z) {v : Go.Val} {r : RVal} (hv : Same g.vars.length v r) :
    Sim { g with env := g.env ++ [v] } { z with tab := z.tab ++ [r] } := by
  refine { h with len := by simp [h.len], tab := ?_ }
  intro i v' r' h1 h2
  rw [List.getElem?_append] at h1 h2
  have hl := h.len
  split at h1
  · next hi =>
    rw [if_pos (by omega)] at h2
    exact h.tab i v' r' h1 h2
  · next hi =>
    rw [if_neg (by omega)] at h2
    have e1 := (List.getElem?_eq_some_iff.1 h1).1
    have e : i - g.env.length = 0 := by simp at e1; omega
    have e' : i - z.tab.length = 0 := by omega
    rw [e] at h1; rw [e'] at h2
    obtain rfl := Option.some.inj h1
    obtain rfl := Option.some.inj h2
    exact hv

/-- New variables keep them alike. -/
private theorem Sim.grow {g : Go.State} {z : State} (h : Sim g z) (n : Nat) (v : Scalar) :
    Sim { g with vars := g.vars ++ List.replicate n v } { z with mem := alloc z.mem z.next n v, next := z.next + n } := by
  refine { h with next := by simp [h.next], mem := ?_, tab := ?_ }
  · intro a ha
    have hn := h.next
    rw [List.length_append, List.length_replicate] at ha
    show (g.vars ++ List.replicate n v)[a]? = some (alloc z.mem z.next n v a)
    rw [List.getElem?_append, alloc]
    split
    · next hlt => rw [if_neg (by omega)]; exact h.mem a hlt
    · next hlt =>
      rw [if_pos ⟨by omega, by omega⟩, List.getElem?_replicate, if_pos (by omega)]
  · intro i v' r' h1 h2
    exact (h.tab i v' r' h1 h2).mono (by simp)

/-- Setting a variable. -/
private theorem Sim.set {g : Go.State} {z : State} (h : Sim g z) (a : Nat) (v : Scalar) :
    Sim { g with vars := g.vars.set a v } { z with mem := fun a' => if a' = a then v else z.mem a' } := by
  refine { h with next := by simp [h.next], mem := ?_, tab := ?_ }
  · intro a' ha
    rw [List.length_set] at ha
    show (g.vars.set a v)[a']? = some (if a' = a then v else z.mem a')
    rw [List.getElem?_set]
    split
    · next he => subst he; rw [if_pos ha, if_pos rfl]
    · next he => rw [if_neg (fun e => he e.symm)]; exact h.mem a' ha
  · intro i v' r' h1 h2
    exact (h.tab i v' r' h1 h2).mono (by simp)

private theorem take_range : ∀ (l c b : Nat), l ≤ c → (List.range' b c).take l = List.range' b l
  | 0, _, _, _ => rfl
  | l + 1, 0, _, h => absurd h (by omega)
  | l + 1, c + 1, b, h => by
    rw [List.range'_succ, List.take_succ_cons, take_range l c (b + 1) (by omega), ← List.range'_succ]

private theorem assign_length (vs : List Scalar) : ∀ (vars : List Scalar) (as : List Nat),
    (Go.assign vars as vs).length = vars.length := by
  induction vs with
  | nil => intro vars as; cases as <;> rfl
  | cons v vs ih =>
    intro vars as
    cases as with
    | nil => rfl
    | cons a as => rw [Go.assign, ih, List.length_set]

private theorem assign_get (n : Nat) : ∀ (b : Nat) (vars vs : List Scalar), b + n ≤ vars.length → ∀ a,
    (Go.assign vars (List.range' b n) vs)[a]? = if b ≤ a ∧ a < b + min n vs.length then vs[a - b]? else vars[a]? := by
  induction n with
  | zero =>
    intro b vars vs _ a
    rw [if_neg (by omega)]
    cases vs <;> rfl
  | succ n ih =>
    intro b vars vs hb a
    cases vs with
    | nil => rw [if_neg (by simp)]; rfl
    | cons v vs =>
      rw [List.range'_succ, Go.assign, ih (b + 1) _ vs (by simp; omega) a, List.getElem?_set]
      by_cases h1 : b + 1 ≤ a ∧ a < b + 1 + min n vs.length
      · rw [if_pos h1, if_pos (by simp only [List.length_cons]; omega), show a - b = (a - (b + 1)) + 1 by omega,
          List.getElem?_cons_succ]
      · rw [if_neg h1]
        by_cases h2 : b = a
        · subst h2
          rw [if_pos rfl, if_pos (by omega), if_pos (by simp only [List.length_cons]; omega), Nat.sub_self]; rfl
        · rw [if_neg h2, if_neg (by simp only [List.length_cons]; omega)]

private theorem values_range (g : Go.State) (z : State) (h : Sim g z) (n : Nat) : ∀ b, b + n ≤ g.vars.length →
    ((List.range' b n).filterMap fun a => g.vars[a]?) = (List.range' b n).map z.mem := by
  induction n with
  | zero => intro b _; rfl
  | succ n ih =>
    intro b hb
    rw [List.range'_succ, List.filterMap_cons, h.mem b (by omega), List.map_cons, ih (b + 1) (by omega)]

/-- Copying. -/
private theorem Sim.move {g : Go.State} {z : State} (h : Sim g z) (b c l b' c' l' : Nat) (hl : l ≤ c) (hl' : l' ≤ c')
    (hb : b + c ≤ g.vars.length) (hb' : b' + c' ≤ g.vars.length) :
    Sim { g with vars := Go.assign g.vars ((List.range' b c).take l) (((List.range' b' c').take l').filterMap fun a => g.vars[a]?) }
      { z with mem := move z.mem b b' (min l l') } := by
  have e1 : (List.range' b c).take l = List.range' b l := take_range l c b hl
  have e2 : (List.range' b' c').take l' = List.range' b' l' := take_range l' c' b' hl'
  rw [e1, e2, values_range g z h l' b' (by omega)]
  refine { h with next := by simp [h.next, assign_length], mem := ?_, tab := ?_ }
  · intro a ha
    rw [assign_length] at ha
    show (Go.assign g.vars (List.range' b l) ((List.range' b' l').map z.mem))[a]? = some (Box.move z.mem b b' (min l l') a)
    rw [assign_get l b g.vars _ (by omega) a, Box.move]
    simp only [List.length_map, List.length_range']
    by_cases hr : b ≤ a ∧ a < b + min l l'
    · rw [if_pos hr, if_pos hr, List.getElem?_map, List.getElem?_range' (by omega)]
      simp
    · rw [if_neg hr, if_neg hr]; exact h.mem a ha
  · intro i v' r' h1 h2
    exact (h.tab i v' r' h1 h2).mono (by simp [assign_length])

private theorem Sim.setChan {g : Go.State} {z : State} (h : Sim g z) (c : Nat) (ch : Go.Chan) (hq : ch.queue = []) :
    Sim { g with chans := g.chans.set c ch } { z with chans := z.chans.set c ⟨ch.kind, ch.cap, ch.queue, ch.closed⟩ } := by
  refine { h with chans := ?_, clen := by simp [h.clen], empty := ?_ }
  · intro i
    show (z.chans.set c _)[i]? = ((g.chans.set c ch)[i]?).map _
    rw [List.getElem?_set, List.getElem?_set, h.clen]
    split
    · split <;> rfl
    · exact h.chans i
  · intro c' hc'
    rcases List.mem_or_eq_of_mem_set hc' with h1 | rfl
    · exact h.empty c' h1
    · exact hq

private theorem Sim.setMap {g : Go.State} {z : State} (h : Sim g z) (m : Nat) (mp : Go.Map) (hq : mp.keys = []) :
    Sim { g with maps := g.maps.set m mp } { z with maps := z.maps.set m ⟨mp.kind, mp.keys⟩ } := by
  refine { h with maps := ?_, mlen := by simp [h.mlen], mempty := ?_ }
  · intro i
    show (z.maps.set m _)[i]? = ((g.maps.set m mp)[i]?).map _
    rw [List.getElem?_set, List.getElem?_set, h.mlen]
    split
    · split <;> rfl
    · exact h.maps i
  · intro c' hc'
    rcases List.mem_or_eq_of_mem_set hc' with h1 | rfl
    · exact h.mempty c' h1
    · exact hq

/-- A call does what Go's statement does. -/
private inductive Agree : Go.Res → Res → Prop where
  | ok (g : Go.State) (z : State) (o : Out) (h : Sim g z) : Agree (.ok g o) (.ok z o)
  | panics : Agree .panics .panics
  | blocks : Agree .blocks .blocks
  | refused : Agree .refused .panics

private theorem call_step (zero : Kind → Scalar) {g : Go.State} {z : State} (h : Sim g z) (st : Stmt) (hf : Go.Fits st)
    (ha : ¬ Go.Avoided g st) : Agree (Go.step zero g st) (call zero z st) := by
  cases st with
  | new k =>
    have h1 := h.grow 1 (zero k)
    exact .ok _ _ _ (h1.push (h.next ▸ .pointer z.next (by simp [h.next])))
  | make k l c =>
    unfold Go.step call; dsimp only
    split
    · exact .panics
    · have h1 := h.grow c (zero k)
      exact .ok _ _ _ (h1.push (h.next ▸ .slice k z.next l c (by omega) (by simp [h.next]) hf))
  | slice x i j =>
    unfold Go.step call; dsimp only
    rcases h.get x with ⟨h1, h2⟩ | ⟨v, r, h1, h2, hs⟩
    · rw [h1, h2]; exact .refused
    · rw [h1, h2]
      cases hs with
      | pointer => exact .refused
      | chan => exact .refused
      | map => exact .refused
      | slice k b l c hl hb hc =>
        dsimp only
        rw [List.length_range']
        split
        · next hij =>
          rw [if_neg (by omega)]
          refine .ok _ _ _ (h.push ?_)
          rw [List.drop_range', Nat.mul_one]
          exact .slice k (b + i) (j - i) (c - i) (by omega) (by omega) (by omega)
        · next hij => rw [if_pos (by omega)]; exact .panics
  | copy d x =>
    unfold Go.step call; dsimp only
    rcases h.get d with ⟨h1, h2⟩ | ⟨v, r, h1, h2, hs⟩
    · rw [h1, h2]; exact .refused
    · rcases h.get x with ⟨h1', h2'⟩ | ⟨v', r', h1', h2', hs'⟩
      · rw [h1, h2, h1', h2']; cases hs <;> exact .refused
      · rw [h1, h2, h1', h2']
        cases hs with
        | pointer => exact .refused
        | chan => exact .refused
        | map => exact .refused
        | slice k b l c hl hb hc =>
          cases hs' with
          | pointer => exact .refused
          | chan => exact .refused
          | map => exact .refused
          | slice k' b' l' c' hl' hb' hc' =>
            dsimp only
            split
            · exact .ok _ _ _ (h.move b c l b' c' l' hl hl' hb hb')
            · exact .refused
  | elem x i =>
    unfold Go.step call; dsimp only
    rcases h.get x with ⟨h1, h2⟩ | ⟨v, r, h1, h2, hs⟩
    · rw [h1, h2]; exact .refused
    · rw [h1, h2]
      cases hs with
      | pointer => exact .refused
      | chan => exact .refused
      | map => exact .refused
      | slice k b l c hl hb hc =>
        dsimp only
        rw [take_range l c b hl]
        by_cases hi : i < l
        · rw [List.getElem?_range' hi, if_pos hi, Nat.one_mul]
          exact .ok _ _ _ (h.push (.pointer _ (by omega)))
        · rw [if_neg hi, List.getElem?_eq_none (by rw [List.length_range']; omega)]
          exact .panics
  | length x =>
    unfold Go.step call; dsimp only
    rcases h.get x with ⟨h1, h2⟩ | ⟨v, r, h1, h2, hs⟩
    · rw [h1, h2]; exact .refused
    · rw [h1, h2]
      cases hs with
      | pointer => exact .refused
      | chan c =>
        dsimp only
        rw [h.chans c]
        cases g.chans[c]? with
        | none => exact .refused
        | some ch => exact .ok _ _ _ h
      | map m =>
        dsimp only
        rw [h.maps m]
        cases g.maps[m]? with
        | none => exact .refused
        | some mp => exact .ok _ _ _ h
      | slice k b l c hl hb hc =>
        dsimp only
        rw [Nat.mod_eq_of_lt (by omega)]
        exact .ok _ _ _ h
  | capacity x =>
    unfold Go.step call; dsimp only
    rcases h.get x with ⟨h1, h2⟩ | ⟨v, r, h1, h2, hs⟩
    · rw [h1, h2]; exact .refused
    · rw [h1, h2]
      cases hs with
      | pointer => exact .refused
      | chan c =>
        dsimp only
        rw [h.chans c]
        cases g.chans[c]? with
        | none => exact .refused
        | some ch => exact .ok _ _ _ h
      | map m => exact .refused
      | slice k b l c hl hb hc =>
        dsimp only
        rw [Nat.mod_eq_of_lt hc, List.length_range']
        exact .ok _ _ _ h
  | isNil x =>
    unfold Go.step call; dsimp only
    rcases h.get x with ⟨h1, h2⟩ | ⟨v, r, h1, h2, hs⟩
    · rw [h1, h2]; exact .refused
    · rw [h1, h2]
      cases hs with
      | pointer a => exact absurd ⟨a, h1⟩ ha
      | chan c => exact .ok _ _ _ h
      | map m => exact .ok _ _ _ h
      | slice k b l c hl hb hc => exact .ok _ _ _ h
  | put x v =>
    unfold Go.step call; dsimp only
    rcases h.get x with ⟨h1, h2⟩ | ⟨w, r, h1, h2, hs⟩
    · rw [h1, h2]; exact .refused
    · rw [h1, h2]
      cases hs with
      | pointer a hlt =>
        dsimp only
        rw [h.mem a hlt]; dsimp only
        split
        · exact .ok _ _ _ (h.set a v)
        · exact .refused
      | chan c => exact absurd ⟨c, h1⟩ ha
      | map m => exact .refused
      | slice k b l c hl hb hc => exact .refused
  | take x k =>
    unfold Go.step call; dsimp only
    rcases h.get x with ⟨h1, h2⟩ | ⟨w, r, h1, h2, hs⟩
    · rw [h1, h2]; exact .refused
    · rw [h1, h2]
      cases hs with
      | pointer a hlt =>
        dsimp only
        rw [h.mem a hlt]; dsimp only
        split
        · exact .ok _ _ _ h
        · exact .refused
      | chan c => exact absurd ⟨c, h1⟩ ha
      | map m => exact .refused
      | slice k b l c hl hb hc => exact .refused
  | makeChan k n =>
    refine .ok _ _ _ ?_
    have h1 : Sim { g with chans := g.chans ++ [⟨k, n, [], false⟩] } { z with chans := z.chans ++ [⟨k, n, [], false⟩] } := by
      refine { h with chans := ?_, clen := by simp [h.clen], empty := ?_ }
      · intro i
        show (z.chans ++ _)[i]? = ((g.chans ++ _)[i]?).map _
        rw [List.getElem?_append, List.getElem?_append, h.clen]
        split
        · exact h.chans i
        · cases i - g.chans.length <;> rfl
      · intro c hc
        rcases List.mem_append.1 hc with hc | hc
        · exact h.empty c hc
        · rw [List.mem_singleton.1 hc]
    have := h1.push (v := .chan g.chans.length) (r := .chan z.chans.length) (h.clen ▸ .chan _)
    exact this
  | close x =>
    unfold Go.step call; dsimp only
    rcases h.get x with ⟨h1, h2⟩ | ⟨v, r, h1, h2, hs⟩
    · rw [h1, h2]; exact .refused
    · rw [h1, h2]
      cases hs with
      | pointer => exact .refused
      | map => exact .refused
      | slice => exact .refused
      | chan c =>
        dsimp only
        rw [h.chans c]
        cases hc : g.chans[c]? with
        | none => exact .refused
        | some ch =>
          dsimp only [Option.map]
          split
          · exact .panics
          · exact .ok _ _ _ (h.setChan c { ch with closed := true } (h.empty ch (List.mem_of_getElem? hc)))
  | makeMap k =>
    refine .ok _ _ _ ?_
    have h1 : Sim { g with maps := g.maps ++ [⟨k, []⟩] } { z with maps := z.maps ++ [⟨k, []⟩] } := by
      refine { h with maps := ?_, mlen := by simp [h.mlen], mempty := ?_ }
      · intro i
        show (z.maps ++ _)[i]? = ((g.maps ++ _)[i]?).map _
        rw [List.getElem?_append, List.getElem?_append, h.mlen]
        split
        · exact h.maps i
        · cases i - g.maps.length <;> rfl
      · intro c hc
        rcases List.mem_append.1 hc with hc | hc
        · exact h.mempty c hc
        · rw [List.mem_singleton.1 hc]
    have := h1.push (v := .map g.maps.length) (r := .map z.maps.length) (h.mlen ▸ .map _)
    exact this
  | key x =>
    unfold Go.step call; dsimp only
    rcases h.get x with ⟨h1, h2⟩ | ⟨v, r, h1, h2, hs⟩
    · rw [h1, h2]; exact .refused
    · rw [h1, h2]
      cases hs with
      | pointer => exact .refused
      | chan => exact .refused
      | slice => exact .refused
      | map m =>
        dsimp only
        rw [h.maps m]
        cases g.maps[m]? with
        | none => exact .refused
        | some mp =>
          have h1 := h.grow 1 (zero mp.kind)
          exact .ok _ _ _ (h1.push (h.next ▸ .pointer z.next (by simp [h.next])))
  | clear x =>
    unfold Go.step call; dsimp only
    rcases h.get x with ⟨h1, h2⟩ | ⟨v, r, h1, h2, hs⟩
    · rw [h1, h2]; exact .refused
    · rw [h1, h2]
      cases hs with
      | pointer => exact .refused
      | chan => exact .refused
      | slice => exact .refused
      | map m =>
        dsimp only
        rw [h.maps m]
        cases g.maps[m]? with
        | none => exact .refused
        | some mp => exact .ok _ _ _ (h.setMap m { mp with keys := [] } rfl)
  | delete x key =>
    unfold Go.step call; dsimp only
    rcases h.get x with ⟨h1, h2⟩ | ⟨v, r, h1, h2, hs⟩
    · rw [h1, h2]; exact .refused
    · rcases h.get key with ⟨h1', h2'⟩ | ⟨v', r', h1', h2', hs'⟩
      · rw [h1, h2, h1', h2']; cases hs <;> exact .refused
      · rw [h1, h2, h1', h2']
        cases hs with
        | pointer => exact .refused
        | chan => exact .refused
        | slice => exact .refused
        | map m =>
          cases hs' with
          | map => exact .refused
          | chan => exact .refused
          | slice => exact .refused
          | pointer a hlt =>
            dsimp only
            rw [h.maps m, h.mem a hlt]
            cases hm : g.maps[m]? with
            | none => exact .refused
            | some mp =>
              dsimp only [Option.map]
              split
              · exact .ok _ _ _ (h.setMap m { mp with keys := _ } (by
                  show mp.keys.filter _ = []
                  rw [h.mempty mp (List.mem_of_getElem? hm)]; rfl))
              · exact .refused

private theorem run_sim (zero : Kind → Scalar) (p : List Stmt) : ∀ (g : Go.State) (z : State), Sim g z →
    (∀ st ∈ p, Go.Fits st) → Go.Plain zero g p →
    run zero z p = ((Go.run zero g p).1, (Go.run zero g p).2.seen) := by
  induction p with
  | nil => intro g z _ _ _; rfl
  | cons st p ih =>
    intro g z h hf hp
    obtain ⟨ha, hr⟩ := hp
    have hs := call_step zero h st (hf st (List.mem_cons_self ..)) ha
    rw [run, Go.run]
    generalize hg : Go.step zero g st = rg at hs
    generalize call zero z st = rz at hs
    cases hs with
    | ok g' z' o h' =>
      dsimp only
      rw [ih g' z' h' (fun s hs => hf s (List.mem_cons_of_mem _ hs)) (hr g' o hg)]
    | panics => rfl
    | blocks => rfl
    | refused => rfl

private theorem sim_start (zero : Kind → Scalar) : Sim Go.start (start zero) where
  next := rfl
  mem := fun a ha => absurd ha (Nat.not_lt_zero a)
  len := rfl
  tab := fun i v r h _ => by simp [Go.start] at h
  chans := fun i => rfl
  clen := rfl
  empty := fun c hc => by cases hc
  maps := fun i => rfl
  mlen := rfl
  mempty := fun c hc => by cases hc

/-- C232, partial: a client's program of slices (make, slice expressions, copy, elements, len, cap), variables (new, stores
and loads through pointers), and of making, closing and measuring channels and maps sees what Go's statements say, and panics
just where they do; lengths are numbers of 32 bits. What is missing: sends, receives, and comparing pointers with nil. -/
theorem handles_are_go_partial (zero : Kind → Scalar) (p : List Stmt) (hf : ∀ st ∈ p, Go.Fits st)
    (hp : Go.Plain zero Go.start p) :
    run zero (start zero) p = ((Go.run zero Go.start p).1, (Go.run zero Go.start p).2.seen) :=
  run_sim zero p _ _ (sim_start zero) hf hp

private def z0 : Kind → Scalar := fun k => ⟨k, [0]⟩
private def seven : Scalar := ⟨.int, [7]⟩

/-- `s := make([]int, 3, 5); t := s[1:4]; p := &t[0]; *p = 7; copy(s, t); q := &s[0]; *q` and the length of `t`. -/
private def shared : List Stmt :=
  [.make .int 3 5, .slice 1 1 4, .elem 2 0, .put 3 seven, .copy 1 2, .elem 1 0, .take 4 .int, .length 2, .elem 1 3]

example : Go.Plain z0 Go.start shared ∧ (∀ st ∈ shared, Go.Fits st) ∧
    run z0 (start z0) shared =
      ([.made, .made, .made, .nothing, .nothing, .made, .value seven, .num 3], .panicked) := by
  refine ⟨?_, ?_, rfl⟩
  · unfold shared
    refine ⟨by simp [Go.Avoided], fun s1 o h => ?_⟩
    obtain ⟨rfl, -⟩ := Go.Res.ok.inj h
    refine ⟨by simp [Go.Avoided], fun s1 o h => ?_⟩
    obtain ⟨rfl, -⟩ := Go.Res.ok.inj h
    refine ⟨by simp [Go.Avoided], fun s1 o h => ?_⟩
    obtain ⟨rfl, -⟩ := Go.Res.ok.inj h
    refine ⟨(by rintro ⟨c, hc⟩; cases hc), fun s1 o h => ?_⟩
    obtain ⟨rfl, -⟩ := Go.Res.ok.inj h
    refine ⟨by simp [Go.Avoided], fun s1 o h => ?_⟩
    obtain ⟨rfl, -⟩ := Go.Res.ok.inj h
    refine ⟨by simp [Go.Avoided], fun s1 o h => ?_⟩
    obtain ⟨rfl, -⟩ := Go.Res.ok.inj h
    refine ⟨(by rintro ⟨c, hc⟩; cases hc), fun s1 o h => ?_⟩
    obtain ⟨rfl, -⟩ := Go.Res.ok.inj h
    refine ⟨by simp [Go.Avoided], fun s1 o h => ?_⟩
    obtain ⟨rfl, -⟩ := Go.Res.ok.inj h
    exact ⟨by simp [Go.Avoided], fun s1 o h => (nomatch h)⟩
  · intro st hst
    simp only [shared, List.mem_cons, List.not_mem_nil, or_false] at hst
    rcases hst with rfl | rfl | rfl | rfl | rfl | rfl | rfl | rfl | rfl <;> simp [Go.Fits]

/-! ### What never works -/

/-- States that the client can reach. -/
inductive Reach (zero : Kind → Scalar) : State → Prop where
  | start : Reach zero (start zero)
  | call (s s' : State) (st : Stmt) (o : Out) (h : Reach zero s) (hc : call zero s st = .ok s' o) : Reach zero s'

private theorem call_empty (zero : Kind → Scalar) (s s' : State) (st : Stmt) (o : Out) (hc : call zero s st = .ok s' o)
    (h1 : ∀ c ∈ s.chans, c.queue = []) (h2 : ∀ m ∈ s.maps, m.keys = []) :
    (∀ c ∈ s'.chans, c.queue = []) ∧ (∀ m ∈ s'.maps, m.keys = []) := by
  have setC : ∀ (i : Nat) (ch : Chan), ch.queue = [] → ∀ c ∈ s.chans.set i ch, c.queue = [] := by
    intro i ch hch c hc
    rcases List.mem_or_eq_of_mem_set hc with h | rfl
    · exact h1 c h
    · exact hch
  have setM : ∀ (i : Nat) (mp : Map), mp.keys = [] → ∀ m ∈ s.maps.set i mp, m.keys = [] := by
    intro i mp hmp m hm
    rcases List.mem_or_eq_of_mem_set hm with h | rfl
    · exact h2 m h
    · exact hmp
  cases st with
  | new k => obtain ⟨rfl, -⟩ := Res.ok.inj hc; exact ⟨h1, h2⟩
  | make k l c =>
    unfold call at hc; dsimp only at hc
    split at hc
    · cases hc
    · obtain ⟨rfl, -⟩ := Res.ok.inj hc; exact ⟨h1, h2⟩
  | slice x i j =>
    unfold call at hc; dsimp only at hc
    split at hc
    · split at hc
      · cases hc
      · obtain ⟨rfl, -⟩ := Res.ok.inj hc; exact ⟨h1, h2⟩
    · cases hc
  | copy d x =>
    unfold call at hc; dsimp only at hc
    split at hc
    · split at hc
      · obtain ⟨rfl, -⟩ := Res.ok.inj hc; exact ⟨h1, h2⟩
      · cases hc
    · cases hc
  | elem x i =>
    unfold call at hc; dsimp only at hc
    split at hc
    · split at hc
      · obtain ⟨rfl, -⟩ := Res.ok.inj hc; exact ⟨h1, h2⟩
      · cases hc
    · cases hc
  | length x =>
    unfold call at hc; dsimp only at hc
    repeat' split at hc
    all_goals first
      | (cases hc; done)
      | (obtain ⟨rfl, -⟩ := Res.ok.inj hc; exact ⟨h1, h2⟩)
  | capacity x =>
    unfold call at hc; dsimp only at hc
    repeat' split at hc
    all_goals first
      | (cases hc; done)
      | (obtain ⟨rfl, -⟩ := Res.ok.inj hc; exact ⟨h1, h2⟩)
  | isNil x =>
    unfold call at hc; dsimp only at hc
    split at hc
    · cases hc
    · obtain ⟨rfl, -⟩ := Res.ok.inj hc; exact ⟨h1, h2⟩
    · cases hc
  | put x v =>
    unfold call at hc; dsimp only at hc
    split at hc
    · split at hc
      · obtain ⟨rfl, -⟩ := Res.ok.inj hc; exact ⟨h1, h2⟩
      · cases hc
    · cases hc
    · cases hc
  | take x k =>
    unfold call at hc; dsimp only at hc
    split at hc
    · split at hc
      · obtain ⟨rfl, -⟩ := Res.ok.inj hc; exact ⟨h1, h2⟩
      · cases hc
    · split at hc
      · next c ch hch =>
        rw [h1 ch (List.mem_of_getElem? hch)] at hc
        dsimp only at hc
        split at hc <;> cases hc
      · cases hc
    · cases hc
  | makeChan k n =>
    obtain ⟨rfl, -⟩ := Res.ok.inj hc
    refine ⟨?_, h2⟩
    intro c hc
    rcases List.mem_append.1 hc with hc | hc
    · exact h1 c hc
    · rw [List.mem_singleton.1 hc]
  | close x =>
    unfold call at hc; dsimp only at hc
    split at hc
    · split at hc
      · next ch hch =>
        split at hc
        · cases hc
        · obtain ⟨rfl, -⟩ := Res.ok.inj hc
          exact ⟨setC _ _ (h1 ch (List.mem_of_getElem? hch)), h2⟩
      · cases hc
    · cases hc
  | makeMap k =>
    obtain ⟨rfl, -⟩ := Res.ok.inj hc
    refine ⟨h1, ?_⟩
    intro c hc
    rcases List.mem_append.1 hc with hc | hc
    · exact h2 c hc
    · rw [List.mem_singleton.1 hc]
  | key x =>
    unfold call at hc; dsimp only at hc
    split at hc
    · split at hc
      · obtain ⟨rfl, -⟩ := Res.ok.inj hc; exact ⟨h1, h2⟩
      · cases hc
    · cases hc
  | clear x =>
    unfold call at hc; dsimp only at hc
    split at hc
    · split at hc
      · obtain ⟨rfl, -⟩ := Res.ok.inj hc; exact ⟨h1, setM _ _ rfl⟩
      · cases hc
    · cases hc
  | delete x key =>
    unfold call at hc; dsimp only at hc
    split at hc
    · split at hc
      · next mp hmp =>
        split at hc
        · obtain ⟨rfl, -⟩ := Res.ok.inj hc
          refine ⟨h1, setM _ _ ?_⟩
          show mp.keys.filter _ = []
          rw [h2 mp (List.mem_of_getElem? hmp)]; rfl
        · cases hc
      · cases hc
    · cases hc

private theorem reach_empty (zero : Kind → Scalar) {s : State} (h : Reach zero s) :
    (∀ c ∈ s.chans, c.queue = []) ∧ (∀ m ∈ s.maps, m.keys = []) := by
  induction h with
  | start => exact ⟨fun c hc => (nomatch hc), fun c hc => (nomatch hc)⟩
  | call s s' st o _ hc ih => exact call_empty zero s s' st o hc ih.1 ih.2

/-- C232 fails for channels: whatever the client does, a send panics, and a receive never gives a value. -/
theorem channels_fail (zero : Kind → Scalar) {s : State} (h : Reach zero s) (x c : Nat) (hx : s.get x = some (.chan c)) :
    (∀ v, call zero s (.put x v) = .panics) ∧ (∀ k s' o, call zero s (.take x k) ≠ .ok s' o) := by
  refine ⟨fun v => ?_, fun k s' o he => ?_⟩
  · unfold call; dsimp only; rw [hx]
  · unfold call at he; dsimp only at he
    rw [hx] at he; dsimp only at he
    split at he
    · next ch hch =>
      rw [(reach_empty zero h).1 ch (List.mem_of_getElem? hch)] at he
      dsimp only at he
      split at he <;> cases he
    · cases he

/-- Go sends into a channel that has room, and receives the value. -/
theorem channels_fails :
    Go.run z0 Go.start [.makeChan .int 1, .put 1 seven, .take 1 .int] = ([.made, .nothing, .value seven], .done) ∧
    run z0 (start z0) [.makeChan .int 1, .put 1 seven, .take 1 .int] = ([.made], .panicked) := ⟨rfl, rfl⟩

/-- A receive from a closed channel gives the zero value in Go, and panics here. -/
theorem closed_channel_fails :
    Go.run z0 Go.start [.makeChan .int 1, .close 1, .take 1 .int] = ([.made, .nothing, .value (z0 .int)], .done) ∧
    run z0 (start z0) [.makeChan .int 1, .close 1, .take 1 .int] = ([.made, .nothing], .panicked) := ⟨rfl, rfl⟩

/-- Maps stay empty: whatever the client does, the length of a map is 0, since no function of the API puts an element in. -/
theorem maps_stay_empty (zero : Kind → Scalar) {s : State} (h : Reach zero s) (x m : Nat) (hx : s.get x = some (.map m))
    (s' : State) (o : Out) (hc : call zero s (.length x) = .ok s' o) : o = .num 0 := by
  unfold call at hc; dsimp only at hc
  rw [hx] at hc; dsimp only at hc
  split at hc
  · next mp hmp =>
    obtain ⟨-, rfl⟩ := Res.ok.inj hc
    rw [(reach_empty zero h).2 mp (List.mem_of_getElem? hmp)]; rfl
  · cases hc

/-- C232 fails for comparing a pointer with nil: Go says that a new variable's address is not nil, the API panics. -/
theorem pointer_nil_fails :
    Go.run z0 Go.start [.new .int, .isNil 1] = ([.made, .flag false], .done) ∧
    run z0 (start z0) [.new .int, .isNil 1] = ([.made], .panicked) := ⟨rfl, rfl⟩

example : Reach z0 ⟨(start z0).mem, 0, [.chan 0], [⟨.int, 1, [], false⟩], []⟩ :=
  .call (start z0) _ (.makeChan .int 1) .made .start rfl

end Verif.Ffi.Box
