import Verif.Mmm.CopyModel
import Verif.Mmm.Lemmas1
/-!
# C196: copies of a pointer

The state before a copy is any that a history of the rest of the package leads to (`run init ops`), with any contents of
the users' APIs.
-/
namespace Verif.Mmm

theorem setRefCounted_mod (r : Nat) : setRefCounted r % 2 ^ 62 = r % 2 ^ 62 := by
  unfold setRefCounted; split
  · rfl
  · simp

theorem isPinned_setRefCounted (r : Nat) : isPinned (setRefCounted r) = isPinned r := by
  unfold setRefCounted isPinned isRefCounted
  split
  · rfl
  · rename_i h
    simp only [decide_eq_true_eq] at h
    have e : r / 2 ^ 63 = r / 2 ^ 62 / 2 := by rw [Nat.div_div_eq_div_mul]
    have e' : (r + 2 ^ 62) / 2 ^ 63 = (r + 2 ^ 62) / 2 ^ 62 / 2 := by rw [Nat.div_div_eq_div_mul]
    have e2 : (r + 2 ^ 62) / 2 ^ 62 = r / 2 ^ 62 + 1 := Nat.add_div_right r (by decide)
    rw [e, e', e2]
    have : (r / 2 ^ 62 + 1) / 2 = r / 2 ^ 62 / 2 := by omega
    rw [this]

/-- A copy of a live pointer that is not pinned, in detail. -/
theorem copy_effect {c : CSt} {E : List Hdl} (hI : Inv1 c.s E) {h l : Hdl} (choice : Nat) (hp : h ∈ c.s.ptrs)
    (hm : matchesRev (c.s.heap h.ref).rev h.rev = true) (hn : isPinned (c.s.heap h.ref).rev = false) :
    ∃ k, (copy c h l choice).2 = [.ptr k] ∧ (copy c h l choice).1.s.ptrs = c.s.ptrs ++ [k] ∧ k.ref ≠ h.ref ∧
      get (copy c h l choice).1.s k = .got (c.s.heap h.ref).val ∧
      get (copy c h l choice).1.s h = .got (c.s.heap h.ref).val ∧
      (copy c h l choice).1.word (c.apiOf h.ref) = c.word (c.apiOf h.ref) + 1 := by
  have hfin := hI.live_of_match hp hm
  have hb := hI.base.fin h.ref hfin
  unfold copy
  rw [hn]
  simp only [Bool.false_eq_true, if_false]
  generalize hs : c.s.upd h.ref (fun x => { x with rev := setRefCounted x.rev }) = s
  have hrev : (s.heap h.ref).rev = setRefCounted (c.s.heap h.ref).rev := by rw [← hs]; simp [St.upd]
  have hval : (s.heap h.ref).val = (c.s.heap h.ref).val := by rw [← hs]; simp [St.upd]
  have hm' : matchesRev (s.heap h.ref).rev h.rev = true := by
    simp only [matchesRev, decide_eq_true_eq] at hm ⊢
    rw [hrev, setRefCounted_mod]; exact hm
  rw [hm']
  simp only [Bool.not_true, Bool.false_eq_true, if_false]
  have e := newRaw_eff s l choice (s.heap h.ref).api (s.heap h.ref).val
  generalize hr : newRaw s l choice (s.heap h.ref).api (s.heap h.ref).val = r at e
  obtain ⟨t, k⟩ := r
  dsimp only at e ⊢
  have hne : k.ref ≠ h.ref := by
    intro he
    rcases e.which with ⟨w1, _⟩ | ⟨_, _, w3, _⟩
    · have hmem : k.ref ∈ c.s.pool := by
        have : s.pool = c.s.pool := by rw [← hs]; rfl
        rw [← this]; exact List.mem_of_getElem? w1
      rw [he] at hmem
      rw [(hI.pool _ hmem).1] at hfin; cases hfin
    · have : s.size = c.s.size := by rw [← hs]; rfl
      have := hb.2; omega
  have hself := core_vals e.self
  have hoth := core_eq (e.other h.ref (Ne.symm hne))
  refine ⟨k, rfl, ?_, hne, ?_, ?_, ?_⟩
  · show t.ptrs ++ [k] = _
    rw [e.ptrs, ← hs]; rfl
  · show get { t with ptrs := _ } k = _
    unfold get
    rw [if_pos (by simp only [matchesRev, decide_eq_true_eq]; rw [hself.1])]
    rw [hself.2.2.2, hval]
  · show get { t with ptrs := _ } h = _
    unfold get
    rw [if_pos (by rw [hoth.1]; exact hm')]
    rw [hoth.2.2.2, hval]
  · simp [put]

/-- **C196**, partial: after any history, the copy of a pointer that is live and not pinned reads what the pointer reads, and the
pointer reads what it did. -/
theorem copy_reads_partial (ops : List Op) (hs : ∀ op ∈ ops, Sane op) (c : CSt) (hc : c.s = (run init ops).1) (p l choice : Nat)
    (h k : Hdl) (v : Nat) (hp : c.s.ptrs[p]? = some h) (hl : c.s.lifes[l]? = some k) (hlive : get c.s h = .got v)
    (hn : isPinned (c.s.heap h.ref).rev = false) :
    ∃ c' k', cstep c (.copy p l choice) = (c', [.ptr k']) ∧ (cstep c' (.base (.get c.s.ptrs.length) 0)).2 = [.got v] ∧
      (cstep c' (.base (.get p) 0)).2 = [.got v] := by
  have hI : Inv1 c.s (ended (run init ops).2) := by
    have := inv1_init.run ops hs
    rw [List.nil_append] at this; rw [hc]; exact this
  unfold get at hlive
  split at hlive
  · rename_i hm
    simp only [Ev.got.injEq] at hlive
    obtain ⟨k', e1, e2, _, e4, e5, _⟩ := copy_effect hI (l := k) choice (List.mem_of_getElem? hp) hm hn
    refine ⟨(copy c h k choice).1, k', ?_, ?_, ?_⟩
    · simp only [cstep, hp, hl, ← e1]
    · have : (copy c h k choice).1.s.ptrs[c.s.ptrs.length]? = some k' := by rw [e2]; simp
      simp only [cstep, step, this, e4, hlive]
    · have : (copy c h k choice).1.s.ptrs[p]? = some h := by rw [e2]; exact getElem?_append_some hp
      simp only [cstep, step, this, e5, hlive]
  · cases hlive

/-- **C196** fails after every history, for every pointer: when its copy is freed, what it points to is released, and the
pointer, which was not freed, still reads it. -/
theorem copy_released_early_fails (ops : List Op) (hs : ∀ op ∈ ops, Sane op) (c : CSt) (hc : c.s = (run init ops).1) (p l choice : Nat)
    (h k : Hdl) (v : Nat) (hp : c.s.ptrs[p]? = some h) (hl : c.s.lifes[l]? = some k) (hlive : get c.s h = .got v)
    (hn : isPinned (c.s.heap h.ref).rev = false) :
    ∃ c' k' name c'', cstep c (.copy p l choice) = (c', [.ptr k']) ∧
      cstep c' (.base (.free c.s.ptrs.length) 0) = (c'', [.freed name v]) ∧ (cstep c'' (.base (.get p) 0)).2 = [.got v] := by
  have hI : Inv1 c.s (ended (run init ops).2) := by
    have := inv1_init.run ops hs
    rw [List.nil_append] at this; rw [hc]; exact this
  unfold get at hlive
  split at hlive
  · rename_i hm
    simp only [Ev.got.injEq] at hlive
    obtain ⟨k', e1, e2, e3, e4, e5, _⟩ := copy_effect hI (l := k) choice (List.mem_of_getElem? hp) hm hn
    have h1 : (copy c h k choice).1.s.ptrs[c.s.ptrs.length]? = some k' := by rw [e2]; simp
    have h2 : (copy c h k choice).1.s.ptrs[p]? = some h := by rw [e2]; exact getElem?_append_some hp
    refine ⟨(copy c h k choice).1, k', ⟨k'.ref, k'.rev % 2 ^ 62⟩,
      { (copy c h k choice).1 with s := (endBlk (copy c h k choice).1.s k'.ref).1 }, ?_, ?_, ?_⟩
    · simp only [cstep, hp, hl, ← e1]
    · simp only [cstep, step, h1, freePtr]
      unfold get at e4
      split at e4
      · rename_i hm4
        rw [if_pos hm4]
        simp only [Ev.got.injEq] at e4
        have ev := (endBlk_eff (copy c h k choice).1.s k'.ref).val
        rw [e4, hlive] at ev
        rw [← ev]
      · cases e4
    · have eff := endBlk_eff (copy c h k choice).1.s k'.ref
      have hoth := core_eq (eff.other h.ref (Ne.symm e3))
      simp only [cstep, step]
      rw [eff.ptrs, h2]
      simp only [get] at e5 ⊢
      rw [hoth.1, hoth.2.2.2, e5, hlive]
  · cases hlive

/-- **C196** fails after every history, for every pointer: copying it changes the API the user gave. -/
theorem copy_counts_in_api_fails (ops : List Op) (hs : ∀ op ∈ ops, Sane op) (c : CSt) (hc : c.s = (run init ops).1) (p l choice : Nat)
    (h k : Hdl) (v : Nat) (hp : c.s.ptrs[p]? = some h) (hl : c.s.lifes[l]? = some k) (hlive : get c.s h = .got v)
    (hn : isPinned (c.s.heap h.ref).rev = false) :
    (cstep c (.copy p l choice)).1.word (c.apiOf h.ref) = c.word (c.apiOf h.ref) + 1 := by
  have hI : Inv1 c.s (ended (run init ops).2) := by
    have := inv1_init.run ops hs
    rw [List.nil_append] at this; rw [hc]; exact this
  unfold get at hlive
  split at hlive
  · rename_i hm
    obtain ⟨k', _, _, _, _, _, e6⟩ := copy_effect hI (l := k) choice (List.mem_of_getElem? hp) hm hn
    simp only [cstep, hp, hl, e6]
  · cases hlive

/-- A history with two lifetimes and a pointer that holds 5, and the state it leads to with any API. -/
def exOps : List Op := [.newLifetime 0, .newLifetime 0, .new 0 0 true 5 false]

example : (∀ op ∈ exOps, Sane op) ∧ (run init exOps).1.ptrs[0]? = some ⟨2, 0⟩ ∧ (run init exOps).1.lifes[1]? = some ⟨1, 0⟩ ∧
    get (run init exOps).1 ⟨2, 0⟩ = .got 5 ∧ isPinned ((run init exOps).1.heap 2).rev = false := by
  refine ⟨by simp [exOps, Sane], by decide +kernel, by decide +kernel, by decide +kernel, by decide +kernel⟩

/-- The same as moves of the extended package. -/
def exCOps : List COp := exOps.map (COp.base · 7) ++ [.copy 0 1 0]

/-- **C196** fails: with an API that begins with 0, ending both lifetimes releases the same resource twice, and nils the
second word of the API. -/
theorem copy_released_twice_fails :
    (crun (cinit (fun _ => 0) (fun _ => 9)) (exCOps ++ [.base (.endLife 1) 0, .base (.endLife 0) 0])).2 =
      [.life ⟨0, 0⟩, .life ⟨1, 0⟩, .ptr ⟨2, 0⟩, .ptr ⟨3, 0⟩, .freed ⟨3, 0⟩ 5, .freed ⟨2, 0⟩ 5] ∧
    (crun (cinit (fun _ => 0) (fun _ => 9)) (exCOps ++ [.base (.endLife 1) 0, .base (.endLife 0) 0])).1.second 7 = 0 := by
  constructor <;> decide +kernel

/-- **C196** fails: with an API that begins with a positive number (an address, say), the end of the pointer's lifetime does
not end the pointer. -/
theorem copy_never_freed_fails :
    (crun (cinit (fun _ => 4096) (fun _ => 9)) (exCOps ++ [.base (.endLife 1) 0, .base (.endLife 0) 0, .base (.get 0) 0])).2 =
      [.life ⟨0, 0⟩, .life ⟨1, 0⟩, .ptr ⟨2, 0⟩, .ptr ⟨3, 0⟩, .freed ⟨3, 0⟩ 5, .got 5] := by decide +kernel

/-- The pointer is freed, and its place given to another. -/
def staleOps : List COp := (exOps ++ [Op.free 0, Op.new 0 0 true 6 false]).map (COp.base · 7)

/-- **C196** fails: copying through the handle of a freed pointer panics, but not without marking the pointer that has its
place since as counted, which then cannot be moved any more. -/
theorem stale_copy_fails :
    (cstep (crun (cinit (fun _ => 0) (fun _ => 9)) staleOps).1 (.copy 0 1 0)).2 = [.crash] ∧
    (cstep (crun (cinit (fun _ => 0) (fun _ => 9)) (staleOps ++ [.copy 0 1 0])).1 (.base (.move 1 1 0) 0)).2 = [.crash] ∧
    (cstep (crun (cinit (fun _ => 0) (fun _ => 9)) staleOps).1 (.base (.move 1 1 0) 0)).2 = [.moved ⟨2, 1⟩, .ptr ⟨2, 2⟩] := by
  refine ⟨?_, ?_, ?_⟩ <;> decide +kernel

end Verif.Mmm
