import Verif.Zgo.SliceSpec
/-!
# zgo slices: both languages as lists

When no slice is shared, a variable is a list, in Go and in Zig.
-/
namespace Verif.Zgo.Slice
open Verif.Zgo.Slice.Spec (Go Part Linear WellFormed NoMake)

variable {V : Type}

/-- A function on numbers holds a list. -/
def Holds (f : Nat → V) (len : Nat) (l : List V) : Prop := l.length = len ∧ ∀ i, i < len → l[i]? = some (f i)

/-- The variables as lists. -/
abbrev Ls (V : Type) := Nat → List V

def lput (L : Ls V) (x : Nat) (l : List V) : Ls V := fun y => if y = x then l else L y

def lstep (zero : V) (L : Ls V) : Op V → Option (Ls V) × List (Obs V)
  | .make x len _ => (some (lput L x (List.replicate len zero)), [])
  | .lit x vs => (some (lput L x vs), [])
  | .append x _ v => (some (lput L x (L x ++ [v])), [])
  | .appendAll x _ vs => (some (lput L x (L x ++ vs)), [])
  | .copy x y =>
    (some (lput L x ((L y).take (L x).length ++ (L x).drop (min (L x).length (L y).length))),
      [.num (min (L x).length (L y).length)])
  | .clear x => (some (lput L x (List.replicate (L x).length zero)), [])
  | .get x i =>
    if i < 0 ∨ (L x).length ≤ i then (none, [.panic]) else (some L, ((L x)[i.toNat]?).toList.map .val)
  | .len x => (some L, [.num (L x).length])
  | _ => (some L, [])

/-! ### Go -/

structure GI (g : Go V) (L : Ls V) : Prop where
  off : ∀ x, (g.part x).off = 0
  le : ∀ x, (g.part x).len ≤ (g.part x).cap
  lt : ∀ x, 0 < (g.part x).cap → (g.part x).arr < g.arrays
  holds : ∀ x, Holds (g.cell (g.part x).arr) (g.part x).len (L x)
  sep : ∀ x y, x ≠ y → 0 < (g.part x).cap → 0 < (g.part y).cap → (g.part x).arr ≠ (g.part y).arr

theorem Holds.congr {f g : Nat → V} {n : Nat} {l : List V} (h : Holds f n l) (e : ∀ i, i < n → g i = f i) :
    Holds g n l := ⟨h.1, fun i hi => by rw [h.2 i hi, e i hi]⟩

theorem GI.list (h : GI (V := V) g L) (x : Nat) : g.list (g.part x) = L x := by
  apply List.ext_getElem?
  intro i
  have hx := h.holds x
  simp only [Go.list, h.off x, Nat.zero_add]
  by_cases hi : i < (g.part x).len
  · rw [hx.2 i hi, List.getElem?_map, List.getElem?_range hi]; rfl
  · rw [List.getElem?_eq_none (by simpa using hi), List.getElem?_eq_none (by rw [hx.1]; omega)]

theorem GI.new {g : Go V} {L : Ls V} (h : GI g L) (zero : V) (x : Nat) (vs : List V) (cap : Nat) (hc : vs.length ≤ cap) :
    GI (g.new zero x vs cap) (lput L x vs) := by
  constructor
  · intro y
    by_cases e : y = x <;> simp [Go.new, e, h.off]
  · intro y
    by_cases e : y = x <;> simp [Go.new, e, h.le, hc]
  · intro y
    by_cases e : y = x
    · simp [Go.new, e]
    · simp only [Go.new, e, if_false]
      intro hy; have := h.lt y hy; omega
  · intro y
    by_cases e : y = x
    · subst e
      simp only [Go.new, lput, if_true]
      refine ⟨rfl, fun i hi => ?_⟩
      simp [List.getD, List.getElem?_eq_getElem hi]
    · simp only [Go.new, lput, e, if_false]
      refine (h.holds y).congr fun i hi => ?_
      have := h.lt y (by have := h.le y; omega)
      rw [if_neg (by omega)]
  · intro y z hyz
    have hy := h.lt y
    have hz := h.lt z
    by_cases ey : y = x <;> by_cases ez : z = x
    · omega
    · simp only [Go.new, ey, ez, if_true, if_false]
      intro _ h2; have := hz h2; omega
    · simp only [Go.new, ey, ez, if_true, if_false]
      intro h1 _; have := hy h1; omega
    · simp only [Go.new, ey, ez, if_false]
      exact h.sep y z hyz

/-- Writing within the capacity of one variable and setting its length. -/
theorem GI.store {g : Go V} {L : Ls V} (h : GI g L) (x i n : Nat) (vs : List V) (hn : n ≤ (g.part x).cap)
    (hi : i + vs.length ≤ n) (l : List V) (hl : l.length = n)
    (hlv : ∀ j, j < n → l[j]? = if i ≤ j ∧ j < i + vs.length then vs[j - i]? else some (g.cell (g.part x).arr j)) :
    GI ((g.store (g.part x) i vs).set x { g.part x with len := n }) (lput L x l) := by
  constructor
  · intro y
    by_cases e : y = x <;> simp [Go.set, Go.store, e, h.off]
  · intro y
    by_cases e : y = x <;> simp [Go.set, Go.store, e, h.le, hn]
  · intro y
    by_cases e : y = x
    · subst e; simp only [Go.set, Go.store, if_true]; exact h.lt y
    · simp only [Go.set, Go.store, e, if_false]; exact h.lt y
  · intro y
    by_cases e : y = x
    · subst e
      simp only [Go.set, lput, if_true]
      refine ⟨hl, fun j hj => ?_⟩
      rw [hlv j hj]
      simp only [Go.store, h.off y, Nat.zero_add, true_and]
      by_cases c : i ≤ j ∧ j < i + vs.length
      · rw [if_pos c, if_pos c]
        have : j - i < vs.length := by omega
        rw [List.getElem?_eq_getElem this]; rfl
      · rw [if_neg c, if_neg c]
    · simp only [Go.set, lput, e, if_false]
      refine (h.holds y).congr fun j hj => ?_
      simp only [Go.store]
      by_cases hv : vs.length = 0
      · rw [if_neg (by omega)]
      · have := h.sep x y (Ne.symm e) (by omega) (by have := h.le y; omega)
        rw [if_neg (by intro hc; exact this hc.1.symm)]
  · intro y z hyz
    have := h.sep y z hyz
    by_cases ey : y = x <;> by_cases ez : z = x
    · omega
    · subst ey; simp only [Go.set, Go.store, ez, if_true, if_false]; exact this
    · subst ez; simp only [Go.set, Go.store, ey, if_true, if_false]; exact this
    · simp only [Go.set, Go.store, ey, ez, if_false]; exact this

theorem store_set_self (g : Go V) (p : Part) (i : Nat) (vs : List V) (x : Nat) (e : g.part x = p) :
    g.store p i vs = (g.store p i vs).set x { p with len := p.len } := by
  have : (g.store p i vs).part = ((g.store p i vs).set x { p with len := p.len }).part := by
    funext y
    by_cases h : y = x
    · subst h; simp [Go.set, Go.store, e]
    · simp [Go.set, h]
  cases h1 : g.store p i vs
  rw [h1] at this
  simp only [Go.set] at this ⊢
  rw [← this]

theorem GI.app {g : Go V} {L : Ls V} (h : GI g L) (more : Nat → Nat) (zero : V) (x : Nat) (vs : List V) :
    GI (g.app more zero x (g.part x) vs) (lput L x (L x ++ vs)) := by
  unfold Go.app
  have hx := h.holds x
  split
  · rename_i hc
    refine h.store x (g.part x).len _ vs hc (by omega) _ (by simp [hx.1]) fun j hj => ?_
    by_cases c : (g.part x).len ≤ j ∧ j < (g.part x).len + vs.length
    · rw [if_pos c, List.getElem?_append_right (by rw [hx.1]; exact c.1), hx.1]
    · rw [if_neg c, List.getElem?_append_left (by rw [hx.1]; omega), hx.2 j (by omega)]
  · rw [h.list x]
    exact h.new zero x _ _ (by simp [hx.1])

/-- Go's step on lists. -/
theorem GI.step {g : Go V} {L : Ls V} (h : GI g L) (more : Nat → Nat) (zero : V) (op : Op V) (hl : Linear op)
    (hw : WellFormed op) (hs : ∀ x i v, op ≠ .set x i v) (hcap : ∀ x, op ≠ .cap x) :
    (Spec.step more zero g op).2 = (lstep zero L op).2 ∧
    ((Spec.step more zero g op).1 = none ∧ (lstep zero L op).1 = none ∨
      ∃ g' L', (Spec.step more zero g op).1 = some g' ∧ (lstep zero L op).1 = some L' ∧ GI g' L') := by
  cases op with
  | make x len cap =>
    exact ⟨rfl, .inr ⟨_, _, rfl, rfl, h.new zero x _ cap (by rw [List.length_replicate]; exact hw)⟩⟩
  | lit x vs => exact ⟨rfl, .inr ⟨_, _, rfl, rfl, h.new zero x vs _ (Nat.le_refl _)⟩⟩
  | append x y v =>
    obtain rfl : x = y := hl
    exact ⟨rfl, .inr ⟨_, _, rfl, rfl, h.app more zero x [v]⟩⟩
  | appendAll x y vs =>
    obtain rfl : x = y := hl
    exact ⟨rfl, .inr ⟨_, _, rfl, rfl, h.app more zero x vs⟩⟩
  | copy x y =>
    have hx := h.holds x
    have hy := h.holds y
    refine ⟨by simp [Spec.step, lstep, hx.1, hy.1], .inr ⟨_, _, rfl, rfl, ?_⟩⟩
    rw [h.list y, store_set_self _ _ _ _ x rfl]
    refine h.store x 0 _ _ (h.le x) ?_ _ ?_ ?_
    · simp [hy.1]; omega
    · simp [hx.1, hy.1]; omega
    · intro j hj
      simp only [List.length_take, hx.1, hy.1, Nat.zero_add, Nat.zero_le, true_and, Nat.sub_zero]
      by_cases c : j < min (min (g.part x).len (g.part y).len) (g.part y).len
      · rw [if_pos c, List.getElem?_append_left (by simp [hy.1]; omega), List.getElem?_take, List.getElem?_take,
          if_pos (by omega), if_pos (by omega)]
      · rw [if_neg c, List.getElem?_append_right (by simp [hy.1]; omega), List.getElem?_drop, ← hx.2 j hj]
        congr 1
        simp [hy.1]; omega
  | clear x =>
    have hx := h.holds x
    refine ⟨rfl, .inr ⟨_, _, rfl, rfl, ?_⟩⟩
    rw [store_set_self _ _ _ _ x rfl, hx.1]
    refine h.store x 0 _ _ (h.le x) (by simp) _ (by simp) fun j hj => ?_
    rw [if_pos (by simp [hj])]; rfl
  | assign x y =>
    obtain rfl : x = y := hl
    refine ⟨rfl, .inr ⟨_, _, rfl, rfl, ?_⟩⟩
    have : g.set x (g.part x) = g := by
      cases g; simp only [Go.set]; congr; funext y; split
      · subst_vars; rfl
      · rfl
    rw [this]; exact h
  | get x i =>
    have hx := h.holds x
    simp only [Spec.step, lstep, hx.1]
    split
    · exact ⟨rfl, .inl ⟨rfl, rfl⟩⟩
    · rename_i hc
      refine ⟨?_, .inr ⟨_, _, rfl, rfl, h⟩⟩
      rw [h.off, hx.2 i.toNat (by omega)]; simp
  | len x => exact ⟨by simp [Spec.step, lstep, (h.holds x).1], .inr ⟨_, _, rfl, rfl, h⟩⟩
  | other => exact ⟨rfl, .inr ⟨_, _, rfl, rfl, h⟩⟩
  | set x i v => exact absurd rfl (hs x i v)
  | cut => exact hl.elim
  | cap x => exact absurd rfl (hcap x)

/-! ### Zig -/

structure ZI (z : St V) (L : Ls V) : Prop where
  le : ∀ x, (z.vars x).len ≤ (z.vars x).cap
  lt : ∀ x, 0 < (z.vars x).cap → (z.vars x).blk < z.next
  holds : ∀ x, Holds (z.mem (z.vars x).blk) (z.vars x).len (L x)
  sep : ∀ x y, x ≠ y → 0 < (z.vars x).cap → 0 < (z.vars y).cap → (z.vars x).blk ≠ (z.vars y).blk

theorem fill_mem (b : Nat) : ∀ (vs : List V) (s : St V) (i b' j : Nat),
    (s.fill b i vs).mem b' j = if b' = b ∧ i ≤ j ∧ j < i + vs.length then (vs[j - i]?).getD (s.mem b' j) else s.mem b' j
  | [], s, i, b', j => by simp [St.fill]
  | v :: vs, s, i, b', j => by
    rw [St.fill, fill_mem b vs]
    by_cases hb : b' = b
    · subst hb
      by_cases h1 : j = i
      · subst h1
        rw [if_neg (by omega), if_pos (by simp)]
        simp [St.write]
      · by_cases h2 : i ≤ j ∧ j < i + (vs.length + 1)
        · rw [if_pos (by omega), if_pos (by simpa using h2)]
          have : j - i = (j - (i + 1)) + 1 := by omega
          rw [this, List.getElem?_cons_succ]
          have h3 : j - (i + 1) < vs.length := by omega
          rw [List.getElem?_eq_getElem h3]; rfl
        · rw [if_neg (by omega), if_neg (by simp; omega)]
          simp [St.write, h1]
    · rw [if_neg (by simp [hb]), if_neg (by simp [hb])]
      simp [St.write, hb]

theorem fill_rest (b : Nat) : ∀ (vs : List V) (s : St V) (i : Nat),
    (s.fill b i vs).next = s.next ∧ (s.fill b i vs).vars = s.vars ∧ (s.fill b i vs).last = s.last
  | [], s, i => ⟨rfl, rfl, rfl⟩
  | v :: vs, s, i => fill_rest b vs _ (i + 1)

theorem blit_mem (d s : Nat) : ∀ (n : Nat) (z : St V) (b i : Nat),
    (z.blit d s n).mem b i = if b = d ∧ i < n then z.mem s i else z.mem b i
  | 0, z, b, i => by simp [St.blit]
  | n + 1, z, b, i => by
    simp only [St.blit, St.write]
    by_cases h : b = d ∧ i = n
    · rw [if_pos h, if_pos (by omega), blit_mem d s n]
      rw [if_neg (by omega), h.2]
    · rw [if_neg h, blit_mem d s n]
      by_cases h2 : b = d ∧ i < n
      · rw [if_pos h2, if_pos (by omega)]
      · rw [if_neg h2, if_neg (by omega)]

theorem blit_rest (d s : Nat) : ∀ (n : Nat) (z : St V),
    (z.blit d s n).next = z.next ∧ (z.blit d s n).vars = z.vars ∧ (z.blit d s n).last = z.last
  | 0, z => ⟨rfl, rfl, rfl⟩
  | n + 1, z => blit_rest d s n z

theorem wipe_mem (zero : V) (d : Nat) : ∀ (n : Nat) (z : St V) (b i : Nat),
    (z.wipe zero d n).mem b i = if b = d ∧ i < n then zero else z.mem b i
  | 0, z, b, i => by simp [St.wipe]
  | n + 1, z, b, i => by
    simp only [St.wipe, St.write]
    by_cases h : b = d ∧ i = n
    · rw [if_pos h, if_pos (by omega)]
    · rw [if_neg h, wipe_mem zero d n]
      by_cases h2 : b = d ∧ i < n
      · rw [if_pos h2, if_pos (by omega)]
      · rw [if_neg h2, if_neg (by omega)]

theorem wipe_rest (zero : V) (d : Nat) : ∀ (n : Nat) (z : St V),
    (z.wipe zero d n).next = z.next ∧ (z.wipe zero d n).vars = z.vars ∧ (z.wipe zero d n).last = z.last
  | 0, z => ⟨rfl, rfl, rfl⟩
  | n + 1, z => wipe_rest zero d n z

theorem alloc_facts (w : World V) (z : St V) (size : Nat) :
    (z.alloc w size).2 = z.next ∧ (z.alloc w size).1.vars = z.vars ∧ z.next ≤ (z.alloc w size).1.next ∧
    (0 < size → (z.alloc w size).1.next = z.next + 1) ∧
    ∀ b i, b < z.next → (z.alloc w size).1.mem b i = z.mem b i := by
  unfold St.alloc
  split
  · refine ⟨rfl, rfl, Nat.le_refl _, by omega, by simp⟩
  · refine ⟨rfl, rfl, Nat.le_succ _, by simp, fun b i hb => ?_⟩
    simp; omega

/-- Any state with the same variables, but one, and memory that is the same where the others are. -/
theorem ZI.change {z : St V} {L : Ls V} (h : ZI z L) (z' : St V) (x : Nat) (v : Slice) (l : List V)
    (hv : z'.vars = fun y => if y = x then v else z.vars y) (hn : z.next ≤ z'.next)
    (hle : v.len ≤ v.cap) (hlt : 0 < v.cap → v.blk < z'.next)
    (hh : Holds (z'.mem v.blk) v.len l)
    (hsep : ∀ y, y ≠ x → 0 < v.cap → 0 < (z.vars y).cap → v.blk ≠ (z.vars y).blk)
    (hmem : ∀ y, y ≠ x → ∀ i, i < (z.vars y).len → z'.mem (z.vars y).blk i = z.mem (z.vars y).blk i) :
    ZI z' (lput L x l) := by
  constructor
  · intro y; rw [hv]; by_cases e : y = x <;> simp [e, hle, h.le]
  · intro y; rw [hv]; by_cases e : y = x
    · simpa [e] using hlt
    · simp only [e, if_false]; intro hc; have := h.lt y hc; omega
  · intro y; rw [hv]; by_cases e : y = x
    · simpa [e, lput] using hh
    · simp only [e, if_false, lput]
      exact (h.holds y).congr (hmem y e)
  · intro y t hyt; rw [hv]
    by_cases ey : y = x <;> by_cases et : t = x
    · omega
    · simp only [ey, et, if_true, if_false]; exact hsep t et
    · simp only [ey, et, if_true, if_false]; intro a b c; exact hsep y ey b a c.symm
    · simp only [ey, et, if_false]; exact h.sep y t hyt

theorem ZI.append {z : St V} {L : Ls V} (h : ZI z L) (w : World V) (hg : ∀ c n, n ≤ w.grow c n) (x : Nat) (v : V) :
    ZI (z.append w x (z.vars x) v) (lput L x (L x ++ [v])) := by
  have hx := h.holds x
  have hlex := h.le x
  -- writing behind the last element of what holds the list
  have hw : ∀ (f : Nat → V), (∀ i, i < (z.vars x).len → f i = z.mem (z.vars x).blk i) → f (z.vars x).len = v →
      Holds f ((z.vars x).len + 1) (L x ++ [v]) := by
    intro f hf hv
    refine ⟨by simp [hx.1], fun i hi => ?_⟩
    by_cases c : i < (z.vars x).len
    · rw [List.getElem?_append_left (by rw [hx.1]; exact c), hx.2 i c, hf i c]
    · have : i = (z.vars x).len := by omega
      subst this
      rw [List.getElem?_append_right (by rw [hx.1]; exact Nat.le_refl _), hx.1, hv]; simp
  have other : ∀ y, y ≠ x → 0 < (z.vars x).cap → ∀ i, i < (z.vars y).len →
      (if (z.vars y).blk = (z.vars x).blk ∧ i = (z.vars x).len then v else z.mem (z.vars y).blk i) =
        z.mem (z.vars y).blk i := by
    intro y hy hc i hi
    have := h.sep x y (Ne.symm hy) hc (by have := h.le y; omega)
    rw [if_neg (by intro hc; exact this hc.1.symm)]
  unfold St.append
  split
  · rename_i hc
    refine h.change _ x _ _ rfl (Nat.le_refl _) hc (fun _ => h.lt x (by omega)) ?_ ?_ ?_
    · refine hw _ (fun i hi => ?_) ?_
      · simp [St.put, St.write]; omega
      · simp [St.put, St.write]
    · intro y hy h1 h2; exact h.sep x y (Ne.symm hy) h1 h2
    · intro y hy i hi; exact other y hy (by omega) i hi
  · split
    · rename_i hc hp
      refine h.change _ x _ _ rfl (Nat.le_refl _) (by simpa using hg _ _) (fun _ => h.lt x hp.1) ?_ ?_ ?_
      · refine hw _ (fun i hi => ?_) ?_
        · simp [St.put, St.write]; omega
        · simp [St.put, St.write]
      · intro y hy _ h2; exact h.sep x y (Ne.symm hy) hp.1 h2
      · intro y hy i hi; exact other y hy hp.1 i hi
    · dsimp only
      have hgc := hg (z.vars x).cap ((z.vars x).len + 1)
      obtain ⟨a1, a2, a3, a4, a5⟩ := alloc_facts w z (w.grow (z.vars x).cap ((z.vars x).len + 1))
      generalize hr : z.alloc w (w.grow (z.vars x).cap ((z.vars x).len + 1)) = r at *
      have hb := blit_rest r.2 (z.vars x).blk (z.vars x).len r.1
      have hm := blit_mem r.2 (z.vars x).blk (z.vars x).len r.1
      have hnx : z.next < r.1.next := by have := a4 (by omega); omega
      have src : ∀ i, i < (z.vars x).len → r.1.mem (z.vars x).blk i = z.mem (z.vars x).blk i :=
        fun i hi => a5 _ _ (h.lt x (by omega))
      refine h.change _ x ⟨r.2, (z.vars x).len + 1, w.grow (z.vars x).cap ((z.vars x).len + 1)⟩ _ ?_ ?_ hgc
        (fun _ => ?_) ?_ ?_ ?_
      · simp only [St.put, St.write, hb.2.1, a2]
      · simp only [St.put, St.write, hb.1]; omega
      · simp only [St.put, St.write, hb.1]; rw [a1]; exact hnx
      · refine hw _ (fun i hi => ?_) ?_
        · simp only [St.put, St.write]
          rw [if_neg (by omega), hm, if_pos ⟨rfl, hi⟩, src i hi]
        · simp [St.put, St.write]
      · intro y hy _ h2
        have := h.lt y h2
        simp only [a1]; omega
      · intro y hy i hi
        have := h.lt y (by have := h.le y; omega)
        simp only [St.put, St.write]
        rw [if_neg (by omega), hm, if_neg (by omega), a5 _ _ this]

theorem ZI.step {z : St V} {L : Ls V} (h : ZI z L) (w : World V) (hg : ∀ c n, n ≤ w.grow c n) (zero : V) (op : Op V)
    (hl : Linear op) (hm : NoMake op) (hc : compiles op = true)
    (hfit : ∀ x y, op = .copy x y → (L y).length ≤ (L x).length) :
    (step w zero z op).2 = (lstep zero L op).2 ∧
    ((step w zero z op).1 = none ∧ (lstep zero L op).1 = none ∨
      ∃ z' L', (step w zero z op).1 = some z' ∧ (lstep zero L op).1 = some L' ∧ ZI z' L') := by
  cases op with
  | make x len cap =>
    obtain rfl : len = 0 := hm
    refine ⟨rfl, .inr ⟨_, _, rfl, rfl, ?_⟩⟩
    obtain ⟨a1, a2, a3, a4, a5⟩ := alloc_facts w z cap
    refine h.change _ x ⟨(z.alloc w cap).2, 0, cap⟩ _ (by simp only [St.put, a2]) a3 (Nat.zero_le _) ?_ ⟨by simp, by simp⟩ ?_ ?_
    · intro hp; simp only [St.put]; have := a4 hp; omega
    · intro y _ hp h2; have := h.lt y h2; simp only [a1]; omega
    · intro y hy i hi; exact a5 _ _ (h.lt y (by have := h.le y; omega))
  | lit x vs =>
    refine ⟨rfl, .inr ⟨_, _, rfl, rfl, ?_⟩⟩
    obtain ⟨a1, a2, a3, a4, a5⟩ := alloc_facts w z vs.length
    generalize hr : z.alloc w vs.length = r at *
    have hf := fill_rest r.2 vs r.1 0
    have hfm := fill_mem r.2 vs r.1 0
    refine h.change _ x ⟨r.2, vs.length, vs.length⟩ _ (by simp only [St.put, hf.2.1, a2]) (by simp only [St.put, hf.1]; exact a3)
      (Nat.le_refl _) ?_ ?_ ?_ ?_
    · intro hp; simp only [St.put, hf.1]; have := a4 hp; omega
    · refine ⟨rfl, fun i hi => ?_⟩
      simp only [St.put]
      rw [hfm, if_pos (by exact ⟨rfl, Nat.zero_le _, by rw [Nat.zero_add]; exact hi⟩), Nat.sub_zero]
      have hi' : i < vs.length := hi
      rw [List.getElem?_eq_getElem hi']; rfl
    · intro y _ hp h2; have := h.lt y h2; simp only [a1]; omega
    · intro y hy i hi
      have := h.lt y (by have := h.le y; omega)
      simp only [St.put]
      rw [hfm, if_neg (by omega), a5 _ _ this]
  | append x y v =>
    obtain rfl : x = y := hl
    exact ⟨rfl, .inr ⟨_, _, rfl, rfl, h.append w hg x v⟩⟩
  | appendAll x y vs =>
    obtain rfl : x = y := hl
    match vs, hc with
    | [v], _ => exact ⟨rfl, .inr ⟨_, _, rfl, rfl, h.append w hg x v⟩⟩
  | copy x y =>
    have hx := h.holds x
    have hy := h.holds y
    have hf := hfit x y rfl
    rw [hx.1, hy.1] at hf
    have e : Slice.step w zero z (.copy x y) = (some (z.blit (z.vars x).blk (z.vars y).blk (z.vars y).len),
        [.num (min (z.vars x).len (z.vars y).len)]) := by
      simp only [Slice.step]; rw [if_neg (by omega)]
    rw [e]
    refine ⟨by simp [lstep, hx.1, hy.1], .inr ⟨_, _, rfl, rfl, ?_⟩⟩
    have hb := blit_rest (z.vars x).blk (z.vars y).blk (z.vars y).len z
    have hbm := blit_mem (z.vars x).blk (z.vars y).blk (z.vars y).len z
    refine h.change _ x (z.vars x) _ ?_ (by rw [hb.1]; exact Nat.le_refl _) (h.le x) (by rw [hb.1]; exact h.lt x) ?_ ?_ ?_
    · rw [hb.2.1]; funext t; split
      · subst_vars; rfl
      · rfl
    · refine ⟨by simp [hx.1, hy.1]; omega, fun i hi => ?_⟩
      rw [hbm]
      by_cases c : i < (z.vars y).len
      · rw [if_pos ⟨rfl, c⟩, List.getElem?_append_left (by simp [hx.1, hy.1]; omega), List.getElem?_take,
          if_pos (by rw [hx.1]; omega), hy.2 i c]
      · rw [if_neg (by omega), List.getElem?_append_right (by simp [hx.1, hy.1]; omega), List.getElem?_drop,
          ← hx.2 i hi]
        congr 1
        simp [hx.1, hy.1]; omega
    · intro t ht h1 h2; exact h.sep x t (Ne.symm ht) h1 h2
    · intro t ht i hi
      rw [hbm]
      by_cases c : 0 < (z.vars x).cap
      · have := h.sep x t (Ne.symm ht) c (by have := h.le t; omega)
        rw [if_neg (by intro hc; exact this hc.1.symm)]
      · have := h.le x
        rw [if_neg (by omega)]
  | clear x =>
    have hx := h.holds x
    refine ⟨rfl, .inr ⟨_, _, rfl, rfl, ?_⟩⟩
    have hb := wipe_rest zero (z.vars x).blk (z.vars x).len z
    have hbm := wipe_mem zero (z.vars x).blk (z.vars x).len z
    refine h.change _ x (z.vars x) _ ?_ (by rw [hb.1]; exact Nat.le_refl _) (h.le x) (by rw [hb.1]; exact h.lt x) ?_ ?_ ?_
    · rw [hb.2.1]; funext t; split
      · subst_vars; rfl
      · rfl
    · refine ⟨by simp [hx.1], fun i hi => ?_⟩
      rw [hbm, if_pos ⟨rfl, hi⟩, hx.1]; simp [hi]
    · intro t ht h1 h2; exact h.sep x t (Ne.symm ht) h1 h2
    · intro t ht i hi
      rw [hbm]
      by_cases c : 0 < (z.vars x).cap
      · have := h.sep x t (Ne.symm ht) c (by have := h.le t; omega)
        rw [if_neg (by intro hc; exact this hc.1.symm)]
      · have := h.le x
        rw [if_neg (by omega)]
  | assign x y =>
    obtain rfl : x = y := hl
    refine ⟨rfl, .inr ⟨_, _, rfl, rfl, ?_⟩⟩
    have : z.put x (z.vars x) = z := by
      cases z; simp only [St.put]; congr; funext y; split
      · subst_vars; rfl
      · rfl
    rw [this]; exact h
  | get x i =>
    have hx := h.holds x
    simp only [Slice.step, lstep, hx.1]
    split
    · exact ⟨rfl, .inl ⟨rfl, rfl⟩⟩
    · rename_i hc
      refine ⟨?_, .inr ⟨_, _, rfl, rfl, h⟩⟩
      rw [hx.2 i.toNat (by omega)]; rfl
  | len x => exact ⟨by simp [Slice.step, lstep, (h.holds x).1], .inr ⟨_, _, rfl, rfl, h⟩⟩
  | other =>
    refine ⟨rfl, .inr ⟨_, _, rfl, rfl, ?_⟩⟩
    obtain ⟨a1, a2, a3, a4, a5⟩ := alloc_facts w z 1
    constructor
    · intro x; rw [a2]; exact h.le x
    · intro x; rw [a2]; intro hp; have := h.lt x hp; omega
    · intro x; rw [a2]
      exact (h.holds x).congr fun i hi => a5 _ _ (h.lt x (by have := h.le x; omega))
    · intro x y; rw [a2]; exact h.sep x y
  | set => simp [compiles] at hc
  | cut => simp [compiles] at hc
  | cap => simp [compiles] at hc

end Verif.Zgo.Slice
