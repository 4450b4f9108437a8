import Verif.Mmm.Lemmas1

/-! Live allocations are not disturbed by operations on others. -/
namespace Verif.Mmm

/-- Live blocks keep their revision number and value unless the events say they were ended. -/
def Keep (s s' : St) (ev : List Ev) : Prop :=
  ∀ b, (s.heap b).fin = true →
    ((s'.heap b).fin = true ∧ (s'.heap b).rev % 2 ^ 62 = (s.heap b).rev % 2 ^ 62 ∧ (s'.heap b).val = (s.heap b).val) ∨
    ⟨b, (s.heap b).rev % 2 ^ 62⟩ ∈ ended ev

theorem Keep.trans {a b c : St} {e f} (h : Keep a b e) (k : Keep b c f) : Keep a c (e ++ f) := by
  intro x hx
  rw [ended_append]
  rcases h x hx with ⟨h1, h2, h3⟩ | h
  · rcases k x h1 with ⟨k1, k2, k3⟩ | k
    · exact .inl ⟨k1, by omega, by omega⟩
    · right; rw [h2] at k; exact List.mem_append_right _ k
  · right; exact List.mem_append_left _ h

theorem Keep.of_core {s s' : St} (h : ∀ i, (s.heap i).fin = true → core (s'.heap i) = core (s.heap i)) (e : List Ev) : Keep s s' e := by
  intro b hb
  have := core_eq (h b hb)
  exact .inl ⟨by rw [this.2.2.1]; exact hb, by rw [this.1], this.2.2.2⟩

theorem Keep.refl (s : St) (e : List Ev) : Keep s s e := Keep.of_core (fun _ _ => rfl) e

theorem Keep.endBlk (s : St) (b : Nat) (v : Nat) : Keep s (Mmm.endBlk s b).1 [.freed ⟨b, (s.heap b).rev % 2 ^ 62⟩ v] := by
  intro c hc
  by_cases h : c = b
  · subst h; right; simp [ended]
  · have := core_eq ((endBlk_eff s b).other c h)
    exact .inl ⟨by rw [this.2.2.1]; exact hc, by rw [this.1], this.2.2.2⟩

theorem Keep.freeObj (s : St) (b : Nat) : Keep s (Mmm.freeObj s b).1 (Mmm.freeObj s b).2.1 := by
  unfold Mmm.freeObj
  dsimp only
  have hu := Keep.of_core (fun i _ => unlink_core s b i) []
  split
  · exact hu.trans (Keep.endBlk (s.unlink b) b _)
  · exact hu.trans (Keep.refl _ _)

theorem Keep.endLoop {root : Nat} (fuel : Nat) : ∀ s : St,
    Keep s (Mmm.endLoop s root fuel).1 (Mmm.endLoop s root fuel).2.1 := by
  induction fuel with
  | zero => intro s; exact Keep.refl _ _
  | succ fuel ih =>
    intro s
    rw [Mmm.endLoop]
    dsimp only
    split
    · have hf := Keep.freeObj s (s.heap root).nxt
      split
      · exact hf
      · exact hf.trans (ih _)
    · exact Keep.refl _ _

theorem Keep.endLife {s : St} {E} (h : Inv1 s E) (l : Hdl) : Keep s (Mmm.endLife s l).1 (Mmm.endLife s l).2 := by
  unfold Mmm.endLife
  split
  · exact Keep.refl _ _
  · split
    · exact Keep.freeObj _ _
    · rename_i ha
      have ha' : (s.heap l.ref).api = false := by simpa using ha
      have hg := Keep.endLoop (root := l.ref) (s.size + 1) s
      have hI := h.endLoop (root := l.ref) (s.size + 1)
      have hr := endLoop_root (root := l.ref) (s.size + 1) s l.ref ha'
      dsimp only
      split
      · exact hg
      · have : Keep (Mmm.endLoop s l.ref (s.size + 1)).1 (if (((Mmm.endLoop s l.ref (s.size + 1)).1.upd l.ref
            fun x => { x with rev := (x.rev + 1) % 2 ^ 64 }).heap l.ref).rev < maxRevision then
            { (Mmm.endLoop s l.ref (s.size + 1)).1.upd l.ref fun x => { x with rev := (x.rev + 1) % 2 ^ 64 } with
              roots := ((Mmm.endLoop s l.ref (s.size + 1)).1.upd l.ref fun x => { x with rev := (x.rev + 1) % 2 ^ 64 }).roots ++ [l.ref] }
            else (Mmm.endLoop s l.ref (s.size + 1)).1.upd l.ref fun x => { x with rev := (x.rev + 1) % 2 ^ 64 }) [] := by
          apply Keep.of_core
          intro i hi
          have hne : i ≠ l.ref := by
            rintro rfl
            have := (hI.base.fin _ hi).1
            rw [hr.1] at this; cases this
          split <;> simp [St.upd, hne]
        have := hg.trans this
        rwa [List.append_nil] at this

theorem Keep.newRaw {s : St} {E} (h : Inv1 s E) (l : Hdl) (c v : Nat) (hv : v ≠ 0) :
    Keep s (Mmm.newRaw s l c true v).1 [] := by
  have a := h.alloc l c v hv
  apply Keep.of_core
  intro i hi
  apply (newRaw_eff s l c true v).other
  rintro rfl
  rw [a.2.2.2.1] at hi; cases hi

theorem Keep.ev {s s' : St} {e : List Ev} (h : Keep s s' []) : Keep s s' e := by
  intro b hb
  rcases h b hb with h | h
  · exact .inl h
  · simp [ended] at h

/-- Every operation other than `Set` keeps live blocks or reports their end. -/
theorem Keep.step {s : St} {E} (h : Inv1 s E) (op : Op) (ho : Sane op) (hs : ∀ p v, op ≠ .set p v) :
    Keep s (Mmm.step s op).1 (Mmm.step s op).2 := by
  cases op with
  | newLifetime c =>
    simp only [Mmm.step]
    unfold Mmm.newLifetime
    split
    · rename_i r hr
      apply Keep.of_core
      intro i hi
      have hra := (h.base.roots r (List.mem_of_getElem? hr)).1
      have hne : i ≠ r := by rintro rfl; have := (h.base.fin _ hi).1; rw [hra] at this; cases this
      simp [St.upd, hne]
    · apply Keep.of_core
      intro i hi
      have := (h.base.fin _ hi).2
      simp [St.upd, show i ≠ s.size by omega]
  | new l c api v pin =>
    simp only [Sane] at ho
    obtain ⟨rfl, hv⟩ := ho
    simp only [Mmm.step]
    split
    · rename_i k hk
      unfold newPtr
      dsimp only
      have hn := Keep.newRaw h k c v hv
      apply Keep.ev
      cases pin
      · simp only [Bool.false_eq_true, if_false]
        exact hn
      · simp only [if_true]
        intro b hb
        rcases hn b hb with ⟨h1, h2, h3⟩ | h
        · left
          simp only [St.upd]
          split
          · simp only [pinRev_mod]; exact ⟨h1, h2, h3⟩
          · exact ⟨h1, h2, h3⟩
        · simp [ended] at h
    · exact Keep.refl _ _
  | get p => simp only [Mmm.step]; split <;> exact Keep.refl _ _
  | set p v => exact absurd rfl (hs p v)
  | free p =>
    simp only [Mmm.step]
    split
    · rename_i k hk
      unfold Mmm.freePtr
      split
      · rename_i hm
        simp only [matchesRev, decide_eq_true_eq] at hm
        dsimp only
        rw [← hm]
        exact Keep.endBlk s k.ref _
      · exact Keep.refl _ _
    · exact Keep.refl _ _
  | move p l c =>
    simp only [Mmm.step]
    split
    · rename_i k j hk hj
      unfold Mmm.move
      split
      · exact Keep.refl _ _
      · split
        · exact Keep.refl _ _
        · rename_i hm
          have hm : matchesRev (s.heap k.ref).rev k.rev = true := by simpa using hm
          have hl := h.live_of_match (List.mem_of_getElem? hk) hm
          have e := h.endBlk k.ref hl
          have hv : (Mmm.endBlk s k.ref).2 ≠ 0 := (h.fin _ hl).2
          simp only [matchesRev, decide_eq_true_eq] at hm
          dsimp only
          rw [(h.base.fin _ hl).1]
          have k1 := Keep.endBlk s k.ref 0
          have k2 := k1.trans (Keep.newRaw e j c _ hv)
          rw [hm] at k2
          intro b hb
          have := k2 b hb
          simpa [ended] using this
    · exact Keep.refl _ _
  | life p =>
    simp only [Mmm.step]
    split
    · unfold Mmm.life
      split <;> exact Keep.refl _ _
    · exact Keep.refl _ _
  | endLife l =>
    simp only [Mmm.step]
    split
    · exact Keep.endLife h _
    · exact Keep.refl _ _

end Verif.Mmm
