import Verif.Qnq.Spec

/-! The invariant of the listener list. -/
namespace Verif.Qnq

/-- A node whose listener was published and whose context has been cancelled. -/
def Gone (s : St) (k : Nat) : Prop := readOf s k = true ∧ ∃ c, ctxOf s k = some c ∧ c ∈ s.cancelled

/-- Going from `i` to `j` passes over nodes of cancelled listeners only. -/
def Skip (s : St) (i j : Nat) : Prop := i < j ∧ j < s.nodes.length ∧ ∀ k, i < k → k < j → Gone s k

/-- The node a registration was given. -/
def holds : Thread → Option Nat
  | .reg _ (.setCtx n) => some n
  | .reg _ (.setHandler n) => some n
  | .reg _ (.setRead n) => some n
  | .reg _ (.done n) => some n
  | _ => none

/-- What a registration has stored so far in its node. -/
def Phase (s : St) (t : Nat) : Thread → Prop
  | .reg _ (.setCtx n) => readOf s n = false
  | .reg c (.setHandler n) => readOf s n = false ∧ ctxOf s n = some c
  | .reg c (.setRead n) => readOf s n = false ∧ ctxOf s n = some c ∧ handlerOf s n = some t
  | .reg c (.done n) => readOf s n = true ∧ ctxOf s n = some c ∧ handlerOf s n = some t
  | _ => True

/-- What a thread knows about its local variables. -/
def Local (s : St) : Thread → Prop
  | .reg _ .tryHead => True
  | .reg _ (.walk n) => n < s.nodes.length
  | .reg _ (.cas n) => n < s.nodes.length
  | .reg _ (.chkRead n nx) => Skip s n nx
  | .reg _ (.chkCtx n nx) => Skip s n nx ∧ readOf s nx = true
  | .reg _ (.chkNext n nx) => Skip s n nx ∧ Gone s nx
  | .reg _ (.del n nx nn) => Skip s n nx ∧ Gone s nx ∧ Skip s nx nn
  | .reg _ _ => True
  | .send _ (.enter none) => True
  | .send _ (.enter (some n)) => n < s.nodes.length
  | .send _ (.chkRead n nx) => n < s.nodes.length ∧ ∀ j, nx = some j → Skip s n j
  | .send _ (.call n nx) => n < s.nodes.length ∧ (∀ j, nx = some j → Skip s n j) ∧ readOf s n = true
  | .send _ (.nRead n nx) => Skip s n nx
  | .send _ (.nCtx n nx) => Skip s n nx ∧ readOf s nx = true
  | .send _ (.nNext n nx) => Skip s n nx ∧ Gone s nx
  | .send _ (.del n nx nn) => Skip s n nx ∧ Gone s nx ∧ Skip s nx nn
  | .send _ (.done _) => True
  | .send _ .crashed => False

/-- The invariant. -/
structure Inv (s : St) : Prop where
  pos : 0 < s.nodes.length
  next : ∀ i j, nextOf s i = some j → Skip s i j
  last : ∀ i, i < s.nodes.length → (nextOf s i = none ↔ i + 1 = s.nodes.length)
  tail : ∀ i, i + 1 = s.nodes.length → readOf s i = false
  lt : ∀ (t : Nat) th (n : Nat), s.threads[t]? = some th → holds th = some n → n + 1 < s.nodes.length
  uniq : ∀ (t t' : Nat) th th' (n : Nat), s.threads[t]? = some th → s.threads[t']? = some th' → holds th = some n → holds th' = some n → t = t'
  cover : ∀ n, n + 1 < s.nodes.length → ∃ (t : Nat) (th : Thread), s.threads[t]? = some th ∧ holds th = some n
  phase : ∀ (t : Nat) th, s.threads[t]? = some th → Phase s t th
  loc : ∀ (t : Nat) th, s.threads[t]? = some th → Local s th

/-- What every step preserves. -/
structure Ext (s s' : St) : Prop where
  len : s.nodes.length ≤ s'.nodes.length
  read : ∀ k, readOf s k = true → readOf s' k = true ∧ ctxOf s' k = ctxOf s k ∧ handlerOf s' k = handlerOf s k
  canc : ∀ c, c ∈ s.cancelled → c ∈ s'.cancelled

theorem Ext.refl (s : St) : Ext s s := ⟨Nat.le_refl _, fun _ h => ⟨h, rfl, rfl⟩, fun _ h => h⟩

theorem Gone.mono {s s'} (e : Ext s s') {k} (h : Gone s k) : Gone s' k := by
  obtain ⟨h1, c, h2, h3⟩ := h
  obtain ⟨g1, g2, _⟩ := e.read k h1
  exact ⟨g1, c, by rw [g2, h2], e.canc c h3⟩

theorem Skip.mono {s s'} (e : Ext s s') {i j} (h : Skip s i j) : Skip s' i j :=
  ⟨h.1, Nat.lt_of_lt_of_le h.2.1 e.len, fun k h1 h2 => (h.2.2 k h1 h2).mono e⟩

theorem Skip.trans {s i j k} (h1 : Skip s i j) (hg : Gone s j) (h2 : Skip s j k) : Skip s i k := by
  refine ⟨Nat.lt_trans h1.1 h2.1, h2.2.1, ?_⟩
  intro m hm1 hm2
  rcases Nat.lt_trichotomy m j with h | h | h
  · exact h1.2.2 m hm1 h
  · subst h; exact hg
  · exact h2.2.2 m h hm2

theorem Local.mono {s s'} (e : Ext s s') {th} (h : Local s th) : Local s' th := by
  have l := e.len
  unfold Local at h ⊢
  split at h
  · trivial
  · exact Nat.lt_of_lt_of_le h l
  · exact Nat.lt_of_lt_of_le h l
  · exact h.mono e
  · exact ⟨h.1.mono e, (e.read _ h.2).1⟩
  · exact ⟨h.1.mono e, h.2.mono e⟩
  · exact ⟨h.1.mono e, h.2.1.mono e, h.2.2.mono e⟩
  · trivial
  · trivial
  · exact Nat.lt_of_lt_of_le h l
  · exact ⟨Nat.lt_of_lt_of_le h.1 l, fun j hj => (h.2 j hj).mono e⟩
  · exact ⟨Nat.lt_of_lt_of_le h.1 l, fun j hj => (h.2.1 j hj).mono e, (e.read _ h.2.2).1⟩
  · exact h.mono e
  · exact ⟨h.1.mono e, (e.read _ h.2).1⟩
  · exact ⟨h.1.mono e, h.2.mono e⟩
  · exact ⟨h.1.mono e, h.2.1.mono e, h.2.2.mono e⟩
  · trivial
  · exact h

/-! ### Reading nodes after a step -/

theorem goto_nodes (s : St) (t th) : (s.goto t th).nodes = s.nodes := rfl
theorem goto_next (s : St) (t th k) : nextOf (s.goto t th) k = nextOf s k := rfl
theorem goto_read (s : St) (t th k) : readOf (s.goto t th) k = readOf s k := rfl
theorem goto_ctx (s : St) (t th k) : ctxOf (s.goto t th) k = ctxOf s k := rfl
theorem goto_handler (s : St) (t th k) : handlerOf (s.goto t th) k = handlerOf s k := rfl

theorem store_len (s : St) (i f) : (s.store i f).nodes.length = s.nodes.length := by simp [St.store, upd]

theorem store_get (s : St) (i f k) : (s.store i f).nodes[k]? = (s.nodes[k]?).map fun x => if i = k then f x else x := by
  show (List.modify s.nodes i f)[k]? = _
  rw [List.getElem?_modify]
  rfl

theorem attach_len (s : St) (i) : (s.attach i).nodes.length = s.nodes.length + 1 := by simp [St.attach, upd]

theorem attach_get (s : St) (i k) : (s.attach i).nodes[k]? =
    if k < s.nodes.length then (s.nodes[k]?).map fun x => if i = k then { x with next := some s.nodes.length } else x
    else if k = s.nodes.length then some zero else none := by
  show ((List.modify s.nodes i _) ++ [zero])[k]? = _
  split
  · rename_i h
    rw [List.getElem?_append_left (by simpa using h), List.getElem?_modify]
    rfl
  · rename_i h
    rw [List.getElem?_append_right (by simpa using Nat.le_of_not_lt h)]
    split
    · rename_i h'; subst h'; simp
    · rename_i h'
      rw [List.getElem?_eq_none]
      simp; omega

theorem next_lt {s : St} {i j} (h : nextOf s i = some j) : i < s.nodes.length := by
  unfold nextOf at h
  rcases Nat.lt_or_ge i s.nodes.length with hi | hi
  · exact hi
  · rw [List.getElem?_eq_none hi] at h; cases h

theorem read_lt {s : St} {i} (h : readOf s i = true) : i < s.nodes.length := by
  unfold readOf at h
  rcases Nat.lt_or_ge i s.nodes.length with hi | hi
  · exact hi
  · rw [List.getElem?_eq_none hi] at h; cases h

/-- After storing a field other than `next`, `next` is as before. -/
theorem store_next (s : St) (i f k) (hf : ∀ x, (f x).next = x.next) : nextOf (s.store i f) k = nextOf s k := by
  unfold nextOf
  rw [store_get]
  cases s.nodes[k]? with
  | none => rfl
  | some x => simp only [Option.map_some, Option.bind_some]; split <;> simp [hf]

theorem store_other (s : St) (i f k) (h : i ≠ k) : nextOf (s.store i f) k = nextOf s k ∧ readOf (s.store i f) k = readOf s k ∧
    ctxOf (s.store i f) k = ctxOf s k ∧ handlerOf (s.store i f) k = handlerOf s k := by
  unfold nextOf readOf ctxOf handlerOf
  rw [store_get]
  simp only [if_neg h]
  cases s.nodes[k]? <;> simp

theorem store_same (s : St) (i f) (h : i < s.nodes.length) : ∃ x, s.nodes[i]? = some x ∧ (s.store i f).nodes[i]? = some (f x) := by
  refine ⟨s.nodes[i], List.getElem?_eq_getElem h, ?_⟩
  rw [store_get, List.getElem?_eq_getElem h]
  simp

theorem setNext_same (s : St) (i v k) : readOf (s.store i fun x => { x with next := v }) k = readOf s k ∧
    ctxOf (s.store i fun x => { x with next := v }) k = ctxOf s k ∧
    handlerOf (s.store i fun x => { x with next := v }) k = handlerOf s k := by
  unfold readOf ctxOf handlerOf
  rw [store_get]
  cases s.nodes[k]? with
  | none => exact ⟨rfl, rfl, rfl⟩
  | some x => simp only [Option.map_some, Option.bind_some]; split <;> exact ⟨rfl, rfl, rfl⟩

theorem attach_same (s : St) (i k) (h : k < s.nodes.length) : readOf (s.attach i) k = readOf s k ∧
    ctxOf (s.attach i) k = ctxOf s k ∧ handlerOf (s.attach i) k = handlerOf s k := by
  unfold readOf ctxOf handlerOf
  rw [attach_get, if_pos h]
  cases s.nodes[k]? with
  | none => exact ⟨rfl, rfl, rfl⟩
  | some x => simp only [Option.map_some, Option.bind_some]; split <;> exact ⟨rfl, rfl, rfl⟩

theorem attach_next_other (s : St) (i k) (h : k < s.nodes.length) (hne : i ≠ k) : nextOf (s.attach i) k = nextOf s k := by
  unfold nextOf
  rw [attach_get, if_pos h]
  simp only [if_neg hne]
  cases s.nodes[k]? <;> simp

theorem attach_next_same (s : St) (i) (h : i < s.nodes.length) : nextOf (s.attach i) i = some s.nodes.length := by
  unfold nextOf
  rw [attach_get, if_pos h, List.getElem?_eq_getElem h]
  simp

theorem attach_new (s : St) (i) : nextOf (s.attach i) s.nodes.length = none ∧ readOf (s.attach i) s.nodes.length = false := by
  unfold nextOf readOf
  rw [attach_get, if_neg (Nat.lt_irrefl _), if_pos rfl]
  exact ⟨rfl, rfl⟩

theorem goto_get {s : St} {t th x} (h : s.threads[t]? = some x) (k : Nat) :
    (s.goto t th).threads[k]? = if t = k then some th else s.threads[k]? := by
  show (s.threads.set t th)[k]? = _
  rw [List.getElem?_set]
  have : t < s.threads.length := by
    rcases Nat.lt_or_ge t s.threads.length with hi | hi
    · exact hi
    · rw [List.getElem?_eq_none hi] at h; cases h
  split <;> simp [this]

/-! ### Steps -/

theorem Phase.mono {s s' : St} {t th} (h : Phase s t th)
    (hk : ∀ n, holds th = some n → readOf s' n = readOf s n ∧ ctxOf s' n = ctxOf s n ∧ handlerOf s' n = handlerOf s n) : Phase s' t th := by
  unfold Phase at h ⊢
  split at h
  · obtain ⟨h1, h2, h3⟩ := hk _ rfl; rw [h1]; exact h
  · obtain ⟨h1, h2, h3⟩ := hk _ rfl; rw [h1, h2]; exact h
  · obtain ⟨h1, h2, h3⟩ := hk _ rfl; rw [h1, h2, h3]; exact h
  · obtain ⟨h1, h2, h3⟩ := hk _ rfl; rw [h1, h2, h3]; exact h
  · trivial

/-- A thread moves without touching memory. -/
theorem Inv.goto {s : St} (h : Inv s) {t : Nat} {th th' : Thread} (ht : s.threads[t]? = some th)
    (hh : holds th' = holds th) (hp : Phase s t th') (hl : Local s th') : Inv (s.goto t th') := by
  have g := fun k => goto_get (th := th') ht k
  refine ⟨h.pos, h.next, h.last, h.tail, ?_, ?_, ?_, ?_, ?_⟩
  · intro k x n hk hx
    rw [g] at hk
    split at hk
    · cases hk; exact h.lt t th n ht (hh ▸ hx)
    · exact h.lt k x n hk hx
  · intro k k' x x' n hk hk' hx hx'
    rw [g] at hk hk'
    split at hk <;> split at hk'
    · omega
    · cases hk; subst_vars; exact h.uniq _ _ _ _ n ht hk' (hh ▸ hx) hx'
    · cases hk'; subst_vars; exact h.uniq _ _ _ _ n hk ht hx (hh ▸ hx')
    · exact h.uniq _ _ _ _ n hk hk' hx hx'
  · intro n hn
    obtain ⟨k, x, h1, h2⟩ := h.cover n hn
    by_cases e : t = k
    · subst e
      rw [ht] at h1; cases h1
      exact ⟨t, th', by rw [g, if_pos rfl], by rw [hh, h2]⟩
    · exact ⟨k, x, by rw [g, if_neg e]; exact h1, h2⟩
  · intro k x hk
    rw [g] at hk
    split at hk
    · cases hk; subst_vars; exact hp
    · exact h.phase k x hk
  · intro k x hk
    rw [g] at hk
    split at hk
    · cases hk; exact hl
    · exact h.loc k x hk

/-- Memory changes in a way that preserves the chain, publishes nothing, and leaves held nodes alone. -/
theorem Inv.mem {s s' : St} (h : Inv s) (hthr : s'.threads = s.threads) (e : Ext s s') (hlen : s'.nodes.length = s.nodes.length)
    (hnext : ∀ i j, nextOf s' i = some j → Skip s' i j)
    (hlast : ∀ i, i < s.nodes.length → (nextOf s' i = none ↔ i + 1 = s.nodes.length))
    (hsame : ∀ n, readOf s' n = readOf s n ∧ ctxOf s' n = ctxOf s n ∧ handlerOf s' n = handlerOf s n) : Inv s' := by
  refine ⟨by rw [hlen]; exact h.pos, hnext, by rw [hlen]; exact hlast, ?_, ?_, ?_, ?_, ?_, ?_⟩
  · intro i hi; rw [(hsame i).1]; exact h.tail i (by omega)
  · rw [hthr, hlen]; exact h.lt
  · rw [hthr]; exact h.uniq
  · rw [hthr, hlen]; exact h.cover
  · intro t th ht; rw [hthr] at ht; exact (h.phase t th ht).mono (fun n _ => hsame n)
  · intro t th ht; rw [hthr] at ht; exact (h.loc t th ht).mono e

/-- Removing a cancelled node. -/
theorem del_ext (s : St) (n nn : Nat) : Ext s (s.store n fun x => { x with next := some nn }) := by
  refine ⟨Nat.le_of_eq (store_len ..).symm, ?_, fun _ h => h⟩
  intro k hk
  obtain ⟨h1, h2, h3⟩ := setNext_same s n (some nn) k
  exact ⟨by rw [h1, hk], h2, h3⟩

theorem Inv.del {s : St} (h : Inv s) {n nx nn : Nat} (hn : nextOf s n = some nx) (hg : Gone s nx) (hs : Skip s nx nn) :
    Inv (s.store n fun x => { x with next := some nn }) ∧ Skip s n nn := by
  have hsk : Skip s n nn := (h.next n nx hn).trans hg hs
  have hlt := next_lt hn
  have e := del_ext s n nn
  have hget : ∀ k, nextOf (s.store n fun x => { x with next := some nn }) k = if n = k then some nn else nextOf s k := by
    intro k
    by_cases hk : n = k
    · subst hk
      rw [if_pos rfl]
      obtain ⟨x, _, h2⟩ := store_same s n (fun x => { x with next := some nn }) hlt
      unfold nextOf; rw [h2]; rfl
    · rw [if_neg hk, (store_other s n _ k hk).1]
  refine ⟨h.mem rfl e (store_len ..) ?_ ?_ (fun k => setNext_same s n (some nn) k), hsk⟩
  · intro i j hij
    rw [hget] at hij
    split at hij
    · cases hij; subst_vars; exact hsk.mono e
    · exact (h.next i j hij).mono e
  · intro i hi
    rw [hget]
    split
    · rename_i e; subst e
      constructor
      · intro x; cases x
      · intro x; have := hsk.1; have := hsk.2.1; omega
    · exact h.last i hi

/-- Linking a new node. -/
theorem attach_ext (s : St) (i : Nat) : Ext s (s.attach i) := by
  refine ⟨by rw [attach_len]; omega, ?_, fun _ h => h⟩
  intro k hk
  obtain ⟨h1, h2, h3⟩ := attach_same s i k (read_lt hk)
  exact ⟨by rw [h1, hk], h2, h3⟩

theorem Inv.attach {s : St} (h : Inv s) {t c i : Nat} {th : Thread} (ht : s.threads[t]? = some th) (hh : holds th = none)
    (hi : i < s.nodes.length) (hn : nextOf s i = none) : Inv ((s.attach i).goto t (.reg c (.setCtx i))) := by
  have hlast : i + 1 = s.nodes.length := (h.last i hi).mp hn
  have e := attach_ext s i
  have g : ∀ k : Nat, ((s.attach i).goto t (.reg c (.setCtx i))).threads[k]? = if t = k then some (.reg c (.setCtx i)) else s.threads[k]? :=
    fun k => goto_get (s := s.attach i) ht k
  have hl : ((s.attach i).goto t (.reg c (.setCtx i))).nodes.length = s.nodes.length + 1 := attach_len s i
  have nohold : ∀ (k : Nat) x, s.threads[k]? = some x → holds x ≠ some i := by
    intro k x hk hx
    have := h.lt k x i hk hx; omega
  refine ⟨by rw [hl]; omega, ?_, ?_, ?_, ?_, ?_, ?_, ?_, ?_⟩
  · intro a b hab
    rw [goto_next] at hab
    have hlt := next_lt hab
    rw [attach_len] at hlt
    by_cases ha : a = s.nodes.length
    · subst ha; rw [(attach_new s i).1] at hab; cases hab
    · by_cases hai : i = a
      · subst hai
        rw [attach_next_same s i hi] at hab
        cases hab
        refine ⟨by omega, ?_, ?_⟩
        · rw [hl]; omega
        · intro k h1 h2; omega
      · rw [attach_next_other s i a (by omega) hai] at hab
        exact (h.next a b hab).mono e
  · intro a ha
    rw [goto_next, hl]
    rw [hl] at ha
    by_cases ha' : a = s.nodes.length
    · subst ha'; simp [(attach_new s i).1]
    · by_cases hai : i = a
      · subst hai; rw [attach_next_same s i hi]; simp; omega
      · rw [attach_next_other s i a (by omega) hai, h.last a (by omega)]; omega
  · intro a ha
    rw [hl] at ha
    have : a = s.nodes.length := by omega
    subst this
    exact (attach_new s i).2
  · intro k x n hk hx
    rw [hl]
    rw [g] at hk
    split at hk
    · cases hk; cases hx; omega
    · have := h.lt k x n hk hx; omega
  · intro k k' x x' n hk hk' hx hx'
    rw [g] at hk hk'
    split at hk <;> split at hk'
    · omega
    · cases hk; cases hx; exact absurd hx' (nohold _ _ hk')
    · cases hk'; cases hx'; exact absurd hx (nohold _ _ hk)
    · exact h.uniq _ _ _ _ n hk hk' hx hx'
  · intro n hn'
    rw [hl] at hn'
    by_cases hni : n = i
    · subst hni; exact ⟨t, _, by rw [g, if_pos rfl], rfl⟩
    · obtain ⟨k, x, h1, h2⟩ := h.cover n (by omega)
      refine ⟨k, x, ?_, h2⟩
      rw [g, if_neg]
      · exact h1
      · rintro rfl; rw [ht] at h1; cases h1; rw [hh] at h2; cases h2
  · intro k x hk
    rw [g] at hk
    split at hk
    · cases hk
      show readOf (s.attach i) i = false
      rw [(attach_same s i i hi).1]; exact h.tail i hlast
    · refine (h.phase k x hk).mono ?_
      intro n hx
      exact attach_same s i n (by have := h.lt k x n hk hx; omega)
  · intro k x hk
    rw [g] at hk
    split at hk
    · cases hk; trivial
    · exact (h.loc k x hk).mono e

/-- A registration stores into its own node. -/
theorem Inv.own {s : St} (h : Inv s) {t n : Nat} {th th' : Thread} {f : Node → Node} (ht : s.threads[t]? = some th) (hh : holds th = some n)
    (hh' : holds th' = some n) (hf : ∀ x, (f x).next = x.next) (hr : readOf s n = false)
    (hp : Phase (s.store n f) t th') (hl : ∀ s, Local s th') :
    Inv ((s.store n f).goto t th') ∧ Ext s ((s.store n f).goto t th') := by
  have hn := h.lt t th n ht hh
  have g : ∀ k : Nat, ((s.store n f).goto t th').threads[k]? = if t = k then some th' else s.threads[k]? :=
    fun k => goto_get (s := s.store n f) ht k
  have e : Ext s ((s.store n f).goto t th') := by
    refine ⟨Nat.le_of_eq (store_len ..).symm, ?_, fun _ h => h⟩
    intro k hk
    have hne : n ≠ k := by rintro rfl; rw [hr] at hk; cases hk
    obtain ⟨_, h1, h2, h3⟩ := store_other s n f k hne
    exact ⟨by rw [goto_read, h1, hk], h2, h3⟩
  have hlen : ((s.store n f).goto t th').nodes.length = s.nodes.length := store_len ..
  refine ⟨⟨by rw [hlen]; exact h.pos, ?_, ?_, ?_, ?_, ?_, ?_, ?_, ?_⟩, e⟩
  · intro i j hij
    rw [goto_next, store_next s n f i hf] at hij
    exact (h.next i j hij).mono e
  · intro i hi
    rw [hlen] at hi ⊢
    rw [goto_next, store_next s n f i hf]
    exact h.last i hi
  · intro i hi
    rw [hlen] at hi
    rw [goto_read, (store_other s n f i (by omega)).2.1]
    exact h.tail i hi
  · intro k x m hk hx
    rw [hlen]
    rw [g] at hk
    split at hk
    · cases hk; rw [hh'] at hx; cases hx; exact hn
    · exact h.lt k x m hk hx
  · intro k k' x x' m hk hk' hx hx'
    rw [g] at hk hk'
    split at hk <;> split at hk'
    · omega
    · cases hk; rw [hh'] at hx; cases hx; subst_vars; exact h.uniq _ _ _ _ n ht hk' hh hx'
    · cases hk'; rw [hh'] at hx'; cases hx'; subst_vars; exact h.uniq _ _ _ _ n hk ht hx hh
    · exact h.uniq _ _ _ _ m hk hk' hx hx'
  · intro m hm
    rw [hlen] at hm
    obtain ⟨k, x, h1, h2⟩ := h.cover m hm
    by_cases ek : t = k
    · subst ek
      rw [ht] at h1; cases h1
      rw [hh] at h2
      exact ⟨t, th', by rw [g, if_pos rfl], by rw [hh', h2]⟩
    · exact ⟨k, x, by rw [g, if_neg ek]; exact h1, h2⟩
  · intro k x hk
    rw [g] at hk
    split at hk
    · cases hk; subst_vars; exact hp
    · rename_i hne
      refine (h.phase k x hk).mono ?_
      intro m hm
      have : n ≠ m := by rintro rfl; exact hne (h.uniq _ _ _ _ n ht hk hh hm)
      obtain ⟨_, h1, h2, h3⟩ := store_other s n f m this
      exact ⟨h1, h2, h3⟩
  · intro k x hk
    rw [g] at hk
    split at hk
    · cases hk; exact hl _
    · exact (h.loc k x hk).mono e

/-- A published node has a context and the listener of the registration that holds it. -/
theorem Inv.published {s : St} (h : Inv s) {n : Nat} (hr : readOf s n = true) :
    ∃ (t c : Nat), s.threads[t]? = some (.reg c (.done n)) ∧ ctxOf s n = some c ∧ handlerOf s n = some t := by
  have hlt := read_lt hr
  have hlt' : n + 1 < s.nodes.length := by
    rcases Nat.lt_or_ge (n + 1) s.nodes.length with h1 | h1
    · exact h1
    · rw [h.tail n (by omega)] at hr; cases hr
  obtain ⟨t, th, h1, h2⟩ := h.cover n hlt'
  have hp := h.phase t th h1
  unfold holds at h2
  split at h2
  · cases h2; unfold Phase at hp; rw [hp] at hr; cases hr
  · cases h2; unfold Phase at hp; rw [hp.1] at hr; cases hr
  · cases h2; unfold Phase at hp; rw [hp.1] at hr; cases hr
  · cases h2; unfold Phase at hp; exact ⟨t, _, h1, hp.2.1, hp.2.2⟩
  · cases h2

theorem Inv.goto_ext {s : St} (t th) : Ext s (s.goto t th) := ⟨Nat.le_refl _, fun _ h => ⟨h, rfl, rfl⟩, fun _ h => h⟩

theorem Ext.trans {a b c : St} (h1 : Ext a b) (h2 : Ext b c) : Ext a c := by
  refine ⟨Nat.le_trans h1.len h2.len, ?_, fun x hx => h2.canc x (h1.canc x hx)⟩
  intro k hk
  obtain ⟨a1, a2, a3⟩ := h1.read k hk
  obtain ⟨b1, b2, b3⟩ := h2.read k a1
  exact ⟨b1, by rw [b2, a2], by rw [b3, a3]⟩

theorem Inv.stepReg {s : St} (h : Inv s) {t c : Nat} {pc : RPc} (ht : s.threads[t]? = some (.reg c pc)) :
    Inv (stepReg s t c pc) ∧ Ext s (stepReg s t c pc) := by
  have hloc := h.loc _ _ ht
  have hph := h.phase _ _ ht
  have mv : ∀ {pc'}, holds (.reg c pc) = none → holds (.reg c pc') = none → Phase s t (.reg c pc') → Local s (.reg c pc') →
      Inv (s.goto t (.reg c pc')) ∧ Ext s (s.goto t (.reg c pc')) := by
    intro pc' e1 e2 e3 e4
    exact ⟨h.goto ht (by rw [e1, e2]) e3 e4, Inv.goto_ext t _⟩
  cases pc with
  | tryHead =>
    rw [Verif.Qnq.stepReg]
    split
    · rename_i hn
      exact ⟨h.attach ht rfl h.pos hn, (attach_ext s 0).trans (Inv.goto_ext t _)⟩
    · exact mv rfl rfl trivial h.pos
  | walk n =>
    rw [Verif.Qnq.stepReg]
    split
    · exact mv rfl rfl trivial hloc
    · rename_i nx hn
      exact mv rfl rfl trivial (h.next n nx hn)
  | cas n =>
    rw [Verif.Qnq.stepReg]
    split
    · rename_i hn
      exact ⟨h.attach ht rfl hloc hn, (attach_ext s n).trans (Inv.goto_ext t _)⟩
    · exact mv rfl rfl trivial hloc
  | chkRead n nx =>
    rw [Verif.Qnq.stepReg]
    split
    · rename_i hr
      exact mv rfl rfl trivial ⟨hloc, hr⟩
    · exact mv rfl rfl trivial hloc.2.1
  | chkCtx n nx =>
    rw [Verif.Qnq.stepReg]
    obtain ⟨h1, h2⟩ := hloc
    obtain ⟨_, x, _, hx, _⟩ := h.published h2
    rw [hx]
    dsimp only
    split
    · rename_i hc
      exact mv rfl rfl trivial ⟨h1, h2, x, hx, hc⟩
    · exact mv rfl rfl trivial h1.2.1
  | chkNext n nx =>
    rw [Verif.Qnq.stepReg]
    obtain ⟨h1, h2⟩ := hloc
    split
    · rename_i nn hn
      exact mv rfl rfl trivial ⟨h1, h2, h.next nx nn hn⟩
    · exact mv rfl rfl trivial h1.2.1
  | del n nx nn =>
    rw [Verif.Qnq.stepReg]
    obtain ⟨h1, h2, h3⟩ := hloc
    split
    · rename_i hn
      obtain ⟨i1, i2⟩ := h.del hn h2 h3
      refine ⟨i1.goto (th := .reg c (.del n nx nn)) ht rfl trivial ?_, (del_ext s n nn).trans (Inv.goto_ext t _)⟩
      show nn < _
      rw [store_len]; exact h3.2.1
    · exact mv rfl rfl trivial h1.2.1
  | setCtx n =>
    rw [Verif.Qnq.stepReg]
    have hn := h.lt _ _ _ ht rfl
    refine h.own ht rfl rfl (by intro; rfl) hph ?_ (fun _ => trivial)
    obtain ⟨x, h1, h2⟩ := store_same s n (fun x => { x with ctx := some c }) (by omega)
    simp only [Phase, readOf, ctxOf]
    simp only [Phase, readOf] at hph
    rw [h1] at hph
    rw [h2]
    exact ⟨hph, rfl⟩
  | setHandler n =>
    rw [Verif.Qnq.stepReg]
    have hn := h.lt _ _ _ ht rfl
    refine h.own ht rfl rfl (by intro; rfl) hph.1 ?_ (fun _ => trivial)
    obtain ⟨x, h1, h2⟩ := store_same s n (fun x => { x with handler := some t }) (by omega)
    simp only [Phase, readOf, ctxOf, handlerOf]
    simp only [Phase, readOf, ctxOf] at hph
    rw [h1] at hph
    rw [h2]
    exact ⟨hph.1, hph.2, rfl⟩
  | setRead n =>
    rw [Verif.Qnq.stepReg]
    have hn := h.lt _ _ _ ht rfl
    refine h.own ht rfl rfl (by intro; rfl) hph.1 ?_ (fun _ => trivial)
    obtain ⟨x, h1, h2⟩ := store_same s n (fun x => { x with read := true }) (by omega)
    simp only [Phase, readOf, ctxOf, handlerOf]
    simp only [Phase, readOf, ctxOf, handlerOf] at hph
    rw [h1] at hph
    rw [h2]
    exact ⟨rfl, hph.2.1, hph.2.2⟩
  | done n => exact ⟨h, Ext.refl s⟩

/-- The log is not part of the invariant. -/
theorem Inv.setLog {s : St} (h : Inv s) (l : List Call) : Inv { s with log := l } :=
  ⟨h.pos, h.next, h.last, h.tail, h.lt, h.uniq, h.cover, fun t th ht => (h.phase t th ht).mono fun _ _ => ⟨rfl, rfl, rfl⟩,
    fun t th ht => (h.loc t th ht).mono ⟨Nat.le_refl _, fun _ h => ⟨h, rfl, rfl⟩, fun _ h => h⟩⟩

theorem Inv.stepSend {s : St} (h : Inv s) {t : Nat} {sent : Bool} (ok : Bool) {pc : SPc} (ht : s.threads[t]? = some (.send sent pc)) :
    Inv (stepSend s t sent ok pc) ∧ Ext s (stepSend s t sent ok pc) := by
  have hloc := h.loc _ _ ht
  have mv : ∀ {b pc'}, Local s (.send b pc') → Inv (s.goto t (.send b pc')) ∧ Ext s (s.goto t (.send b pc')) := by
    intro b pc' e4
    exact ⟨h.goto ht rfl trivial e4, Inv.goto_ext t _⟩
  cases pc with
  | enter n =>
    cases n with
    | none => rw [Verif.Qnq.stepSend]; exact mv trivial
    | some n =>
      rw [Verif.Qnq.stepSend]
      exact mv ⟨hloc, fun j hj => h.next n j hj⟩
  | chkRead n nx =>
    rw [Verif.Qnq.stepSend]
    split
    · rename_i hr; exact mv ⟨hloc.1, hloc.2, hr⟩
    · cases nx with
      | none => exact mv trivial
      | some nx => exact mv (hloc.2 nx rfl).2.1
  | call n nx =>
    rw [Verif.Qnq.stepSend]
    obtain ⟨h1, h2, h3⟩ := hloc
    obtain ⟨r, _, _, _, hr⟩ := h.published h3
    rw [hr]
    dsimp only
    split
    · have : Local s (.send true (afterCall n nx)) := by
        cases nx with
        | none => trivial
        | some nx => exact h2 nx rfl
      exact ⟨(mv this).1.setLog _, ⟨Nat.le_refl _, fun _ h => ⟨h, rfl, rfl⟩, fun _ h => h⟩⟩
    · have : Local s (.send sent (.done .err)) := trivial
      exact ⟨(mv this).1.setLog _, ⟨Nat.le_refl _, fun _ h => ⟨h, rfl, rfl⟩, fun _ h => h⟩⟩
  | nRead n nx =>
    rw [Verif.Qnq.stepSend]
    split
    · rename_i hr
      exact mv ⟨hloc, hr⟩
    · exact mv hloc.2.1
  | nCtx n nx =>
    rw [Verif.Qnq.stepSend]
    obtain ⟨h1, h2⟩ := hloc
    obtain ⟨_, x, _, hx, _⟩ := h.published h2
    rw [hx]
    dsimp only
    split
    · rename_i hc
      exact mv ⟨h1, h2, x, hx, hc⟩
    · exact mv h1.2.1
  | nNext n nx =>
    rw [Verif.Qnq.stepSend]
    obtain ⟨h1, h2⟩ := hloc
    split
    · rename_i nn hn
      exact mv ⟨h1, h2, h.next nx nn hn⟩
    · exact mv h1.2.1
  | del n nx nn =>
    rw [Verif.Qnq.stepSend]
    obtain ⟨h1, h2, h3⟩ := hloc
    split
    · rename_i hn
      obtain ⟨i1, i2⟩ := h.del hn h2 h3
      refine ⟨i1.goto (th := .send sent (.del n nx nn)) ht rfl trivial ?_, (del_ext s n nn).trans (Inv.goto_ext t _)⟩
      show nn < _
      rw [store_len]; exact h3.2.1
    · exact mv h1.2.1
  | done r => exact ⟨h, Ext.refl s⟩
  | crashed => exact ⟨h, Ext.refl s⟩

theorem Inv.spawn {s : St} (h : Inv s) (th : Thread) (hh : holds th = none) (hp : ∀ t, Phase s t th) (hl : Local s th) :
    Inv { s with threads := s.threads ++ [th] } := by
  have g : ∀ (k : Nat) (x : Thread), (s.threads ++ [th])[k]? = some x → s.threads[k]? = some x ∨ (k = s.threads.length ∧ x = th) := by
    intro k x hk
    rcases Nat.lt_or_ge k s.threads.length with hk' | hk'
    · rw [List.getElem?_append_left hk'] at hk; exact .inl hk
    · rw [List.getElem?_append_right hk'] at hk
      right
      have : k - s.threads.length = 0 := by
        rcases Nat.eq_zero_or_pos (k - s.threads.length) with h0 | h0
        · exact h0
        · rw [List.getElem?_eq_none (by simp; omega)] at hk; cases hk
      rw [this] at hk
      exact ⟨by omega, by simpa using hk.symm⟩
  refine ⟨h.pos, h.next, h.last, h.tail, ?_, ?_, ?_, ?_, ?_⟩
  · intro k x n hk hx
    rcases g k x hk with hk | ⟨_, rfl⟩
    · exact h.lt k x n hk hx
    · rw [hh] at hx; cases hx
  · intro k k' x x' n hk hk' hx hx'
    rcases g k x hk with hk | ⟨_, rfl⟩
    · rcases g k' x' hk' with hk' | ⟨_, rfl⟩
      · exact h.uniq _ _ _ _ n hk hk' hx hx'
      · rw [hh] at hx'; cases hx'
    · rw [hh] at hx; cases hx
  · intro n hn
    obtain ⟨k, x, h1, h2⟩ := h.cover n hn
    refine ⟨k, x, ?_, h2⟩
    show (s.threads ++ [th])[k]? = some x
    rw [List.getElem?_append_left]
    · exact h1
    · rcases Nat.lt_or_ge k s.threads.length with hi | hi
      · exact hi
      · rw [List.getElem?_eq_none hi] at h1; cases h1
  · intro k x hk
    rcases g k x hk with hk | ⟨_, rfl⟩
    · exact (h.phase k x hk).mono fun _ _ => ⟨rfl, rfl, rfl⟩
    · exact (hp k).mono fun _ _ => ⟨rfl, rfl, rfl⟩
  · intro k x hk
    have e : Ext s { s with threads := s.threads ++ [th] } := ⟨Nat.le_refl _, fun _ h => ⟨h, rfl, rfl⟩, fun _ h => h⟩
    rcases g k x hk with hk | ⟨_, rfl⟩
    · exact (h.loc k x hk).mono e
    · exact hl.mono e

theorem Inv.step {s : St} (h : Inv s) (a : Act) : Inv (step s a) ∧ Ext s (step s a) := by
  cases a with
  | cancel c =>
    rw [Verif.Qnq.step]
    split
    · exact ⟨h, Ext.refl s⟩
    · have e : Ext s { s with cancelled := c :: s.cancelled } := ⟨Nat.le_refl _, fun _ h => ⟨h, rfl, rfl⟩, fun _ h => List.mem_cons_of_mem _ h⟩
      exact ⟨h.mem rfl e rfl (fun i j hij => (h.next i j hij).mono e) h.last (fun _ => ⟨rfl, rfl, rfl⟩), e⟩
  | register c =>
    rw [Verif.Qnq.step]
    refine ⟨?_, ⟨Nat.le_refl _, fun _ h => ⟨h, rfl, rfl⟩, fun _ h => h⟩⟩
    split
    · exact h.spawn _ rfl (fun _ => trivial) trivial
    · exact h.spawn _ rfl (fun _ => trivial) h.pos
  | send =>
    rw [Verif.Qnq.step]
    exact ⟨h.spawn _ rfl (fun _ => trivial) h.pos, ⟨Nat.le_refl _, fun _ h => ⟨h, rfl, rfl⟩, fun _ h => h⟩⟩
  | run t ok =>
    rw [Verif.Qnq.step]
    split
    · rename_i c pc ht; exact h.stepReg ht
    · rename_i sent pc ht; exact h.stepSend ok ht
    · exact ⟨h, Ext.refl s⟩

theorem inv_init : Inv init := by
  have hn : ∀ i, nextOf init i = none := by intro i; cases i <;> rfl
  refine ⟨by decide, ?_, ?_, ?_, ?_, ?_, ?_, ?_, ?_⟩
  · intro i j h; rw [hn] at h; cases h
  · intro i hi; rw [hn]; simp only [init, List.length_cons, List.length_nil] at hi ⊢; simp; omega
  · intro i _; cases i <;> rfl
  · intro t th n h; cases h
  · intro t t' th th' n h; cases h
  · intro n hn; simp only [init, List.length_cons, List.length_nil] at hn; omega
  · intro t th h; cases h
  · intro t th h; cases h

theorem Inv.run {s : St} (h : Inv s) (as : List Act) : Inv (run s as) ∧ Ext s (run s as) := by
  induction as generalizing s with
  | nil => exact ⟨h, Ext.refl s⟩
  | cons a as ih =>
    obtain ⟨h1, h2⟩ := h.step a
    obtain ⟨h3, h4⟩ := ih h1
    exact ⟨h3, h2.trans h4⟩

end Verif.Qnq
