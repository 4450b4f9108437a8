import Verif.Zgo.EscSpec
import Mathlib.Data.List.Induction

/-! # zgo escape analysis: helper lemmas -/
namespace Verif.Zgo.Esc
open Spec Relation

theorem mem_addAll (b : Key) (xs ys : List Key) : b ∈ addAll xs ys ↔ b ∈ xs ∨ b ∈ ys := by
  induction ys generalizing xs with
  | nil => simp [addAll]
  | cons y ys ih =>
    rw [addAll, ih]
    by_cases h : y ∈ xs
    · simp only [h, if_true, List.mem_cons]
      constructor
      · rintro (h1 | h1) <;> simp [h1]
      · rintro (h1 | h1 | h1)
        · exact Or.inl h1
        · subst h1; exact Or.inl h
        · exact Or.inr h1
    · simp only [h, if_false, List.mem_append, List.mem_cons, List.not_mem_nil, or_false]
      tauto

theorem flag_route {f : Plan → Bool} (hf : Flag f) (p q : Plan) :
    f (p.route q) = true ↔ f p = true ∨ f q = true := by
  rcases hf with rfl | rfl | rfl | rfl
  · cases h : q.block <;> simp [Plan.route, h]
  · cases h : q.function <;> simp [Plan.route, h]
  · cases h : q.goroutine <;> simp [Plan.route, h]
  · cases h : q.containment <;> simp [Plan.route, h]

theorem flag_acc {f : Plan → Bool} (hf : Flag f) (as : List Key) :
    f { accomplices := as } = false := by
  rcases hf with rfl | rfl | rfl | rfl <;> rfl

theorem mem_route (b : Key) (p q : Plan) :
    b ∈ (p.route q).accomplices ↔ b ∈ p.accomplices ∨ b ∈ q.accomplices := mem_addAll _ _ _

def keys (g : Graph) : List Key := g.map Prod.fst

theorem find_set (g : Graph) (k : Key) (p : Plan) (k' : Key) :
    (g.set k p).find k' = if k' = k then some p else g.find k' := by
  induction g with
  | nil =>
    simp only [Graph.set, Graph.find]
    by_cases h : k = k' <;> simp [h, eq_comm]
  | cons x rest ih =>
    obtain ⟨k1, q⟩ := x
    simp only [Graph.set]
    by_cases h : k1 = k
    · simp only [h, if_true, Graph.find]
      by_cases h2 : k = k'
      · simp [h2]
      · simp [h2, Ne.symm h2]
    · simp only [h, if_false, Graph.find]
      by_cases h2 : k1 = k'
      · subst h2; simp [h]
      · simp [h2, ih]

theorem at_set (g : Graph) (k : Key) (p : Plan) (k' : Key) :
    (g.set k p).at k' = if k' = k then p else g.at k' := by
  unfold Graph.at; rw [find_set]; split <;> simp

theorem find_isSome (g : Graph) (k : Key) : (g.find k).isSome = true ↔ k ∈ keys g := by
  induction g with
  | nil => simp [Graph.find, keys]
  | cons x rest ih =>
    obtain ⟨k1, q⟩ := x
    simp only [Graph.find, keys, List.map_cons, List.mem_cons]
    by_cases h : k1 = k
    · simp [h]
    · simp only [h, if_false, ih, keys]
      constructor
      · exact Or.inr
      · rintro (h1 | h1)
        · exact absurd h1.symm h
        · exact h1

theorem keys_set (g : Graph) (k : Key) (p : Plan) (h : k ∈ keys g) : keys (g.set k p) = keys g := by
  induction g with
  | nil => simp [keys] at h
  | cons x rest ih =>
    obtain ⟨k1, q⟩ := x
    simp only [Graph.set]
    by_cases h1 : k1 = k
    · subst h1; simp [keys]
    · simp only [h1, if_false, keys, List.map_cons]
      congr 1
      apply ih
      simp only [keys, List.map_cons, List.mem_cons] at h
      rcases h with h | h
      · exact absurd h.symm h1
      · exact h

/-! ## The graph the scanner builds -/

theorem at_link (g : Graph) (a b : Key) (hab : a ≠ b) (k : Key) :
    (g.link a b).at k =
      if k = b then (g.at b).route { accomplices := [a] }
      else if k = a then (g.at a).route { accomplices := [b] }
      else g.at k := by
  simp only [Graph.link, at_set]
  by_cases h1 : k = b
  · subst h1; simp [Ne.symm hab]
  · simp [h1]

theorem mem_link (g : Graph) (a b : Key) (hab : a ≠ b) (k c : Key) :
    c ∈ ((g.link a b).at k).accomplices ↔
      c ∈ (g.at k).accomplices ∨ (k = a ∧ c = b) ∨ (k = b ∧ c = a) := by
  rw [at_link g a b hab]
  by_cases h1 : k = b
  · subst h1
    simp only [if_true, mem_route, List.mem_singleton, true_and]
    constructor
    · rintro (h | h)
      · exact Or.inl h
      · exact Or.inr (Or.inr h)
    · rintro (h | h | h)
      · exact Or.inl h
      · exact absurd h.1.symm hab
      · exact Or.inr h
  · rw [if_neg h1]
    by_cases h2 : k = a
    · subst h2
      simp only [if_true, mem_route, List.mem_singleton, true_and, h1, false_and, or_false]
    · simp [h1, h2]

theorem flag_link {f : Plan → Bool} (hf : Flag f) (g : Graph) (a b : Key) (hab : a ≠ b) (k : Key) :
    f ((g.link a b).at k) = true ↔ f (g.at k) = true := by
  rw [at_link g a b hab]
  by_cases h1 : k = b
  · subst h1; simp [flag_route hf, flag_acc hf]
  · by_cases h2 : k = a
    · subst h2; simp [h1, flag_route hf, flag_acc hf]
    · simp [h1, h2]

/-- Operations whose marks carry no accomplices of their own (all of the scanner's). -/
def Plain (ops : List Op) : Prop := ∀ n via, Op.route n via ∈ ops → via.accomplices = []

theorem run_snoc (ops : List Op) (op : Op) : run (ops ++ [op]) = op.apply (run ops) := by
  simp [run, List.foldl_append]

theorem linked_snoc (ops : List Op) (op : Op) (a b : Key) :
    Linked (ops ++ [op]) a b ↔ Linked ops a b ∨ Linked [op] a b := by
  simp only [Linked, List.mem_append, List.mem_singleton]
  constructor
  · rintro ⟨o, h | h, h2⟩
    · exact Or.inl ⟨o, h, h2⟩
    · exact Or.inr ⟨o, h, h2⟩
  · rintro (⟨o, h, h2⟩ | ⟨o, h, h2⟩)
    · exact ⟨o, Or.inl h, h2⟩
    · exact ⟨o, Or.inr h, h2⟩

theorem marked_snoc (f : Plan → Bool) (ops : List Op) (op : Op) (a : Key) :
    Marked f (ops ++ [op]) a ↔ Marked f ops a ∨ Marked f [op] a := by
  simp only [Marked, List.mem_append, List.mem_singleton]
  constructor
  · rintro ⟨n, v, h | h, h2⟩
    · exact Or.inl ⟨n, v, h, h2⟩
    · exact Or.inr ⟨n, v, h, h2⟩
  · rintro (⟨n, v, h, h2⟩ | ⟨n, v, h, h2⟩)
    · exact ⟨n, v, Or.inl h, h2⟩
    · exact ⟨n, v, Or.inr h, h2⟩

theorem mem_run (ops : List Op) (hp : Plain ops) (k c : Key) :
    c ∈ ((run ops).at k).accomplices ↔ Linked ops k c := by
  induction ops using List.reverseRecOn with
  | nil => simp [run, Graph.at, Graph.find, Linked]
  | append_singleton ops op ih =>
    have hp' : Plain ops := fun n via h => hp n via (List.mem_append_left _ h)
    rw [run_snoc, linked_snoc, ← ih hp']
    cases op with
    | route n via =>
      have hv := hp n via (by simp)
      simp only [Op.apply, at_set, Linked, List.mem_singleton, exists_eq_left, or_false]
      by_cases h : k = .node n
      · subst h; simp [mem_route, hv]
      · simp [h]
    | together a b =>
      simp only [Op.apply, Linked, List.mem_singleton, exists_eq_left]
      by_cases h : a = b
      · simp [h]
      · rw [if_neg h, mem_link _ _ _ (by simpa using h)]
        simp [h]
    | info u n =>
      simp only [Op.apply, Linked, List.mem_singleton, exists_eq_left]
      rw [mem_link _ _ _ (by simp)]

theorem flag_run {f : Plan → Bool} (hf : Flag f) (ops : List Op) (k : Key) :
    f ((run ops).at k) = true ↔ Marked f ops k := by
  induction ops using List.reverseRecOn with
  | nil =>
    simp only [run, List.foldl_nil, Graph.at, Graph.find, Option.getD_none, Marked, List.not_mem_nil,
      false_and, exists_false, iff_false]
    have := flag_acc hf []
    simpa using this
  | append_singleton ops op ih =>
    rw [run_snoc, marked_snoc, ← ih]
    cases op with
    | route n via =>
      simp only [Op.apply, at_set, Marked, List.mem_singleton, Op.route.injEq]
      by_cases h : k = .node n
      · subst h
        simp only [if_true, flag_route hf]
        constructor
        · rintro (h | h)
          · exact Or.inl h
          · exact Or.inr ⟨n, via, ⟨rfl, rfl⟩, rfl, h⟩
        · rintro (h | ⟨_, _, ⟨rfl, rfl⟩, _, h⟩)
          · exact Or.inl h
          · exact Or.inr h
      · simp only [h, if_false]
        constructor
        · exact Or.inl
        · rintro (h1 | ⟨_, _, ⟨rfl, rfl⟩, h2, _⟩)
          · exact h1
          · exact absurd h2 h
    | together a b =>
      simp only [Op.apply, Marked, List.mem_singleton, reduceCtorEq, false_and, exists_false, or_false]
      by_cases h : a = b
      · simp [h]
      · rw [if_neg h, flag_link hf _ _ _ (by simpa using h)]
    | info u n =>
      simp only [Op.apply, Marked, List.mem_singleton, reduceCtorEq, false_and, exists_false, or_false]
      rw [flag_link hf _ _ _ (by simp)]

/-! ## The walk -/

/-- The accomplices of `a` in the graph. -/
def Step (g : Graph) (a b : Key) : Prop := b ∈ (g.at a).accomplices

/-- `g` is what walks from `g0` may have cached: nothing lost, nothing that cannot be reached added. -/
structure Ext (g0 g : Graph) : Prop where
  keys : keys g = keys g0
  flags : ∀ f, Flag f → ∀ k, f (g0.at k) = true → f (g.at k) = true
  accs : ∀ k b, Step g0 k b → Step g k b
  flagsOk : ∀ f, Flag f → ∀ k, f (g.at k) = true → ∃ b, ReflTransGen (Step g0) k b ∧ f (g0.at b) = true
  accsOk : ∀ k b, Step g k b → ReflTransGen (Step g0) k b

theorem Ext.refl (g : Graph) : Ext g g :=
  ⟨rfl, fun _ _ _ h => h, fun _ _ h => h, fun _ _ k h => ⟨k, .refl, h⟩, fun _ _ h => .single h⟩

theorem Ext.reach {g0 g : Graph} (h : Ext g0 g) (a b : Key) :
    ReflTransGen (Step g) a b ↔ ReflTransGen (Step g0) a b := by
  constructor
  · intro h1
    induction h1 with
    | refl => exact .refl
    | tail _ h2 ih => exact ih.trans (h.accsOk _ _ h2)
  · intro h1
    induction h1 with
    | refl => exact .refl
    | tail _ h2 ih => exact ih.tail (h.accs _ _ h2)

theorem Ext.trans {g0 g1 g2 : Graph} (h1 : Ext g0 g1) (h2 : Ext g1 g2) : Ext g0 g2 := by
  refine ⟨h2.keys.trans h1.keys, fun f hf k h => h2.flags f hf k (h1.flags f hf k h),
    fun k b h => h2.accs k b (h1.accs k b h), fun f hf k h => ?_, fun k b h => ?_⟩
  · obtain ⟨b, hb, hb2⟩ := h2.flagsOk f hf k h
    obtain ⟨c, hc, hc2⟩ := h1.flagsOk f hf b hb2
    exact ⟨c, ((h1.reach k b).1 hb).trans hc, hc2⟩
  · exact (h1.reach k b).1 (h2.accsOk k b h)

/-- How many keys of the graph have not been seen. -/
def unseen (g0 : Graph) (seen : List Key) : Nat := ((keys g0).filter (fun k => decide (k ∉ seen))).length

theorem unseen_mono (g0 : Graph) {s t : List Key} (h : ∀ x ∈ s, x ∈ t) : unseen g0 t ≤ unseen g0 s := by
  unfold unseen
  rw [← List.countP_eq_length_filter, ← List.countP_eq_length_filter]
  apply List.countP_mono_left
  intro x _ hx
  simp only [decide_eq_true_eq] at hx ⊢
  exact fun h1 => hx (h x h1)

theorem unseen_cons (g0 : Graph) {s : List Key} {k : Key} (hk : k ∈ keys g0) (hs : k ∉ s) :
    unseen g0 (k :: s) < unseen g0 s := by
  unfold unseen
  generalize keys g0 = ks at hk
  induction ks with
  | nil => simp at hk
  | cons a as ih =>
    have hle : (as.filter (fun x => decide (x ∉ k :: s))).length ≤ (as.filter (fun x => decide (x ∉ s))).length := by
      rw [← List.countP_eq_length_filter, ← List.countP_eq_length_filter]
      apply List.countP_mono_left
      intro x _ hx
      simp only [decide_eq_true_eq, List.mem_cons, not_or] at hx ⊢
      exact hx.2
    by_cases ha : a = k
    · subst ha
      rw [List.filter_cons, List.filter_cons]
      simp only [List.mem_cons, true_or, not_true_eq_false, decide_false, Bool.false_eq_true, if_false,
        hs, not_false_eq_true, decide_true, if_true, List.length_cons]
      simp only [List.mem_cons] at hle
      omega
    · have hk' : k ∈ as := by
        rcases List.mem_cons.1 hk with h | h
        · exact absurd h.symm ha
        · exact h
      have := ih hk'
      rw [List.filter_cons, List.filter_cons]
      by_cases hs' : a ∈ s
      · simpa [hs', ha] using this
      · simpa [hs', ha] using this

/-- What one walk guarantees. -/
structure Walk (g0 : Graph) (seen : List Key) (k : Key) (r : Plan × (Graph × List Key)) : Prop where
  ext : Ext g0 r.2.1
  grow : ∀ x ∈ seen, x ∈ r.2.2
  here : k ∈ r.2.2
  flagsOk : ∀ f, Flag f → f r.1 = true → ∃ b, ReflTransGen (Step g0) k b ∧ f (g0.at b) = true
  accsOk : ∀ b ∈ r.1.accomplices, ReflTransGen (Step g0) k b
  flags : ∀ x ∈ r.2.2, x ∉ seen → ∀ f, Flag f → f (g0.at x) = true → f r.1 = true
  closed : ∀ x ∈ r.2.2, x ∉ seen → ∀ y, Step g0 x y → y ∈ r.2.2

/-- What holds while the accomplices of `k` are being walked. -/
structure During (g0 : Graph) (seen : List Key) (k : Key) (done : List Key) (r : Plan × (Graph × List Key)) : Prop where
  ext : Ext g0 r.2.1
  grow : ∀ x ∈ k :: seen, x ∈ r.2.2
  done : ∀ x ∈ done, x ∈ r.2.2
  flagsOk : ∀ f, Flag f → f r.1 = true → ∃ b, ReflTransGen (Step g0) k b ∧ f (g0.at b) = true
  accsOk : ∀ b ∈ r.1.accomplices, ReflTransGen (Step g0) k b
  own : ∀ f, Flag f → f (g0.at k) = true → f r.1 = true
  flags : ∀ x ∈ r.2.2, x ∉ k :: seen → ∀ f, Flag f → f (g0.at x) = true → f r.1 = true
  closed : ∀ x ∈ r.2.2, x ∉ k :: seen → ∀ y, Step g0 x y → y ∈ r.2.2

theorem at_none {g : Graph} {k : Key} (h : g.find k = none) : g.at k = {} := by simp [Graph.at, h]

theorem get_walk (g0 : Graph) : ∀ (n : Nat) (g : Graph) (seen : List Key) (k : Key),
    Ext g0 g → unseen g0 seen < n → Walk g0 seen k (get n (g, seen) k) := by
  intro n
  induction n with
  | zero => intro g seen k _ h; omega
  | succ n ih =>
    intro g seen k hext hn
    rw [get]
    by_cases hk : k ∈ seen
    · rw [if_pos hk]
      refine ⟨hext, fun _ h => h, hk, fun f hf h => ?_, fun b h => ?_, fun x h h2 => absurd h h2, fun x h h2 => absurd h h2⟩
      · have := flag_acc hf []; simp_all
      · simp at h
    · rw [if_neg hk]
      cases hfind : g.find k with
      | none =>
        have hk0 : k ∉ keys g0 := by
          rw [← hext.keys, ← find_isSome, hfind]; simp
        have hk1 : g0.find k = none := by
          cases h : g0.find k with
          | none => rfl
          | some p => exact absurd ((find_isSome g0 k).1 (by simp [h])) hk0
        refine ⟨hext, fun x h => List.mem_cons_of_mem _ h, List.mem_cons_self, fun f hf h => ?_, fun b h => ?_, ?_, ?_⟩
        · have := flag_acc hf []; simp_all
        · simp at h
        · intro x hx hx2 f hf h
          rcases List.mem_cons.1 hx with rfl | hx
          · rw [at_none hk1] at h
            have := flag_acc hf []; simp_all
          · exact absurd hx hx2
        · intro x hx hx2 y hy
          rcases List.mem_cons.1 hx with rfl | hx
          · simp [Step, at_none hk1] at hy
          · exact absurd hx hx2
      | some p =>
        have hat : g.at k = p := by simp [Graph.at, hfind]
        have hkg : k ∈ keys g := (find_isSome g k).1 (by simp [hfind])
        have hk0 : k ∈ keys g0 := hext.keys ▸ hkg
        have hlt : unseen g0 (k :: seen) < n := by
          have := unseen_cons g0 hk0 hk; omega
        -- the fold
        have hfold : ∀ (as done : List Key) (r : Plan × (Graph × List Key)),
            (∀ a ∈ as, ReflTransGen (Step g0) k a) →
            During g0 seen k done r →
            During g0 seen k (done ++ as) (as.foldl
              (fun (acc : Plan × (Graph × List Key)) a =>
                let q := get n acc.2 a
                (acc.1.route q.1, q.2)) r) := by
          intro as
          induction as with
          | nil => intro done r _ h; simpa using h
          | cons a as iha =>
            intro done r hreach hr
            rw [List.foldl_cons]
            have hreach' : ∀ a ∈ as, ReflTransGen (Step g0) k a := fun x hx => hreach x (List.mem_cons_of_mem _ hx)
            have hka := hreach a List.mem_cons_self
            have hw : Walk g0 r.2.2 a (get n r.2 a) := by
              have := ih r.2.1 r.2.2 a hr.ext (Nat.lt_of_le_of_lt (unseen_mono g0 hr.grow) hlt)
              simpa using this
            have := iha (done ++ [a]) (r.1.route (get n r.2 a).1, (get n r.2 a).2) hreach' ?_
            · simpa using this
            · refine ⟨hw.ext, fun x hx => hw.grow x (hr.grow x hx), ?_, ?_, ?_, ?_, ?_, ?_⟩
              · intro x hx
                rcases List.mem_append.1 hx with h | h
                · exact hw.grow x (hr.done x h)
                · rw [List.mem_singleton] at h; subst h; exact hw.here
              · intro f hf h
                rcases (flag_route hf _ _).1 h with h | h
                · exact hr.flagsOk f hf h
                · obtain ⟨b, hb, hb2⟩ := hw.flagsOk f hf h
                  exact ⟨b, hka.trans hb, hb2⟩
              · intro b hb
                rcases (mem_route _ _ _).1 hb with h | h
                · exact hr.accsOk b h
                · exact hka.trans (hw.accsOk b h)
              · intro f hf h
                exact (flag_route hf _ _).2 (Or.inl (hr.own f hf h))
              · intro x hx hx2 f hf h
                by_cases hxr : x ∈ r.2.2
                · exact (flag_route hf _ _).2 (Or.inl (hr.flags x hxr hx2 f hf h))
                · exact (flag_route hf _ _).2 (Or.inr (hw.flags x hx hxr f hf h))
              · intro x hx hx2 y hy
                by_cases hxr : x ∈ r.2.2
                · exact hw.grow y (hr.closed x hxr hx2 y hy)
                · exact hw.closed x hx hxr y hy
        have h0 : During g0 seen k [] (p, (g, k :: seen)) := by
          refine ⟨hext, fun x h => h, by simp, ?_, ?_, ?_, fun x h h2 => absurd h h2, fun x h h2 => absurd h h2⟩
          · intro f hf h; exact hext.flagsOk f hf k (by rw [hat]; exact h)
          · intro b hb; exact hext.accsOk k b (by unfold Step; rw [hat]; exact hb)
          · intro f hf h; have := hext.flags f hf k h; rwa [hat] at this
        have hd := hfold p.accomplices [] (p, (g, k :: seen))
          (fun a ha => hext.accsOk k a (by unfold Step; rw [hat]; exact ha)) h0
        simp only [List.nil_append] at hd
        dsimp only
        generalize hR : p.accomplices.foldl
              (fun (acc : Plan × (Graph × List Key)) a =>
                let q := get n acc.2 a
                (acc.1.route q.1, q.2)) (p, (g, k :: seen)) = R at hd
        have hkR : k ∈ keys R.2.1 := by rw [hd.ext.keys]; exact hk0
        refine ⟨?_, fun x h => hd.grow x (List.mem_cons_of_mem _ h), hd.grow k List.mem_cons_self,
          hd.flagsOk, hd.accsOk, ?_, ?_⟩
        · refine ⟨(keys_set _ _ _ hkR).trans hd.ext.keys, ?_, ?_, ?_, ?_⟩
          · intro f hf x h
            rw [at_set]
            split
            · rename_i hx; subst hx; exact hd.own f hf h
            · exact hd.ext.flags f hf x h
          · intro x b h
            unfold Step; rw [at_set]
            split
            · rename_i hx; subst hx
              -- the accomplices the plan started with are still there
              have hstart : ∀ (as : List Key) (r : Plan × (Graph × List Key)), b ∈ r.1.accomplices →
                  b ∈ (as.foldl
                    (fun (acc : Plan × (Graph × List Key)) a =>
                      let q := get n acc.2 a
                      (acc.1.route q.1, q.2)) r).1.accomplices := by
                intro as
                induction as with
                | nil => intro r h; exact h
                | cons a as iha =>
                  intro r h
                  exact iha _ ((mem_route _ _ _).2 (Or.inl h))
              rw [← hR]
              apply hstart
              have := hext.accs x b h
              unfold Step at this; rwa [hat] at this
            · exact hd.ext.accs x b h
          · intro f hf x h
            rw [at_set] at h
            split at h
            · rename_i hx; subst hx; exact hd.flagsOk f hf h
            · exact hd.ext.flagsOk f hf x h
          · intro x b h
            unfold Step at h; rw [at_set] at h
            split at h
            · rename_i hx; subst hx; exact hd.accsOk b h
            · exact hd.ext.accsOk x b h
        · intro x hx hx2 f hf h
          by_cases hxk : x = k
          · subst hxk; exact hd.own f hf h
          · exact hd.flags x hx (by simp [hxk, hx2]) f hf h
        · intro x hx hx2 y hy
          by_cases hxk : x = k
          · subst hxk
            apply hd.done
            have := hext.accs x y hy
            unfold Step at this; rwa [hat] at this
          · exact hd.closed x hx (by simp [hxk, hx2]) y hy

theorem unseen_nil_lt (g : Graph) : unseen g [] < g.length + 1 := by
  unfold unseen keys
  have := List.length_filter_le (fun k => decide (k ∉ ([] : List Key))) (g.map Prod.fst)
  simp only [List.length_map] at this
  omega

theorem ask_walk (g : Graph) (u : Nat) :
    Walk g [] (.var u) (get (g.length + 1) (g, []) (.var u)) :=
  get_walk g _ g [] _ (Ext.refl g) (unseen_nil_lt g)

theorem ask_flag (g : Graph) (u : Nat) {f : Plan → Bool} (hf : Flag f) :
    f (ask g u).1 = true ↔ ∃ b, ReflTransGen (Step g) (.var u) b ∧ f (g.at b) = true := by
  have hw := ask_walk g u
  constructor
  · exact hw.flagsOk f hf
  · rintro ⟨b, hb, h⟩
    have hmem : ∀ b, ReflTransGen (Step g) (.var u) b → b ∈ (get (g.length + 1) (g, []) (.var u)).2.2 := by
      intro b hb
      induction hb with
      | refl => exact hw.here
      | tail _ h2 ih => exact hw.closed _ ih (by simp) _ h2
    exact hw.flags b (hmem b hb) (by simp) f hf h

theorem asks_ext (g : Graph) (us : List Nat) : Ext g (us.foldl (fun g u => (ask g u).2) g) := by
  induction us generalizing g with
  | nil => exact Ext.refl g
  | cons u us ih => exact (ask_walk g u).ext.trans (ih _)

theorem ask_after (ops : List Op) (hp : Plain ops) (before : List Nat) (u : Nat) {f : Plan → Bool} (hf : Flag f) :
    f (ask (before.foldl (fun g u => (ask g u).2) (run ops)) u).1 = true ↔ MarkReaches f ops (.var u) := by
  have hext := asks_ext (run ops) before
  have hstep : Step (run ops) = Linked ops := by
    funext a b; exact propext (mem_run ops hp a b)
  rw [ask_flag _ _ hf]
  constructor
  · rintro ⟨b, hb, h⟩
    obtain ⟨c, hc, h2⟩ := hext.flagsOk f hf b h
    refine ⟨c, ?_, (flag_run hf ops c).1 h2⟩
    rw [← hstep]
    exact ((hext.reach _ _).1 hb).trans hc
  · rintro ⟨b, hb, h⟩
    rw [← hstep] at hb
    exact ⟨b, (hext.reach _ _).2 hb, hext.flags f hf b ((flag_run hf ops b).2 h)⟩

end Verif.Zgo.Esc
