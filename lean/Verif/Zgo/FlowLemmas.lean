import Verif.Zgo.FlowSpec

/-!
# zgo control flow: lemmas
-/
namespace Verif.Zgo.Flow
open Spec

variable {σ : Type}

/-! ## A statement in a switch that keeps its breaks does not end with one -/

/-- Not ended by `break` without a label. -/
def NoBrk (r : Option (σ × Out)) : Prop := ∀ s, r ≠ some (s, .brk none)

theorem noBrk_normal (s : σ) : NoBrk (some (s, .normal)) := by intro t h; simp at h

theorem noBrk_round {label : Option Nat} {r q : Option (σ × Out)} (h : round label r = .inl q) : NoBrk q := by
  intro s hq
  subst hq
  match r with
  | none => simp [round] at h
  | some (x, .normal) => simp [round] at h
  | some (x, .ret) => simp [round] at h
  | some (x, .cont t) =>
    simp only [round] at h
    split at h <;> simp at h
  | some (x, .brk none) => simp [round, mine] at h
  | some (x, .brk (some t)) =>
    simp only [round] at h
    split at h <;> simp at h

theorem noBrk_while (label : Option Nat) (test : σ → Bool) (post : σ → σ) (body : σ → Option (σ × Out)) :
    ∀ n s, NoBrk (while_ label test post body n s) := by
  intro n
  induction n with
  | zero => intro s t h; simp [while_] at h
  | succ n ih =>
    intro s
    simp only [while_]
    split
    · split
      · next r hr => exact noBrk_round hr
      · exact ih _
    · exact noBrk_normal s

theorem noBrk_for (label : Option Nat) (bind : Nat → σ → σ) (body : σ → Option (σ × Out)) :
    ∀ n i s, NoBrk (for_ label bind body n i s) := by
  intro n
  induction n with
  | zero => intro i s; exact noBrk_normal s
  | succ n ih =>
    intro i s
    simp only [for_]
    split
    · next r hr => exact noBrk_round hr
    · exact ih _ _

theorem noBrk_seq {r : Option (σ × Out)} {k : σ → Option (σ × Out)} (hr : NoBrk r) (hk : ∀ s, NoBrk (k s)) :
    NoBrk (seq r k) := by
  unfold seq
  split
  · exact hk _
  · exact hr

theorem noBrk_leaveSwitch (r : Option (σ × Out)) : NoBrk (leaveSwitch r) := by
  unfold leaveSwitch
  split
  · exact noBrk_normal _
  · next h => intro s hs; exact h s hs

mutual
theorem noBrk_run (env : Env σ) (fuel : Nat) : ∀ (s : Stmt) (x : σ), Plain true s → NoBrk (goRun env fuel s x)
  | .act n, x, _ => noBrk_normal _
  | .block b, x, h => by rw [goRun]; exact noBrk_all env fuel b x h
  | .cond init c t e, x, h => by
      rw [goRun]
      split
      · exact noBrk_all env fuel t _ h.2.1
      · exact noBrk_all env fuel e _ h.2.2
  | .loop _ _ _ _ _, x, _ => by rw [goRun]; exact noBrk_while _ _ _ _ _ _
  | .range _ _ _, x, _ => by rw [goRun]; exact noBrk_for _ _ _ _ _ _
  | .switch _ _ _, x, _ => by rw [goRun]; exact noBrk_leaveSwitch _
  | .brk none, x, h => by simp [Plain] at h
  | .brk (some l), x, _ => by intro t ht; simp [goRun] at ht
  | .cont l, x, _ => by intro t ht; simp [goRun] at ht
  | .ret, x, _ => by intro t ht; simp [goRun] at ht
  | .labelled _ _, x, h => by simp [Plain] at h

theorem noBrk_all (env : Env σ) (fuel : Nat) : ∀ (b : Stmts) (x : σ), PlainAll true b → NoBrk (goAll env fuel b x)
  | .nil, x, _ => noBrk_normal _
  | .cons s rest, x, h => by
      rw [goAll]
      exact noBrk_seq (noBrk_run env fuel s x h.1) (fun y => noBrk_all env fuel rest y h.2)
end

theorem noBrk_match (env : Env σ) (fuel : Nat) (v : Int) : ∀ (cs : Clauses) (x : σ) (r : Option (σ × Out)),
    PlainClauses cs → goMatch env fuel v cs x = some r → NoBrk r
  | .nil, x, r, _, h => by simp [goMatch] at h
  | .cons g b f rest, x, r, hp, h => by
      rw [goMatch] at h
      rw [hp.1] at h
      split at h
      · simp at h; subst h; exact noBrk_all env fuel b x hp.2.1
      · exact noBrk_match env fuel v rest x r hp.2.2 h

theorem noBrk_default (env : Env σ) (fuel : Nat) : ∀ (cs : Clauses) (x : σ) (r : Option (σ × Out)),
    PlainClauses cs → goDefault env fuel cs x = some r → NoBrk r
  | .nil, x, r, _, h => by simp [goDefault] at h
  | .cons g b f rest, x, r, hp, h => by
      rw [goDefault] at h
      rw [hp.1] at h
      split at h
      · simp at h; subst h; exact noBrk_all env fuel b x hp.2.1
      · exact noBrk_default env fuel rest x r hp.2.2 h

theorem leaveSwitch_noBrk {r : Option (σ × Out)} (h : NoBrk r) : leaveSwitch r = r := by
  unfold leaveSwitch
  split
  · next s => exact absurd rfl (h s)
  · rfl

theorem leaveBlock_none (r : Option (σ × Out)) : leaveBlock none r = r := by
  unfold leaveBlock
  split
  · simp
  · rfl

theorem seq_normal (r : Option (σ × Out)) : seq r (fun s => some (s, .normal)) = r := by
  unfold seq
  split <;> rfl

theorem zigRun_withInit (env : Env σ) (fuel : Nat) (init : Option Nat) (z : ZStmt) (x : σ) :
    zigRun env fuel (withInit init z) x = zigRun env fuel z (opt env init x) := by
  cases init with
  | none => rfl
  | some i =>
    simp only [withInit, zigRun, leaveBlock_none, zigAll, seq, opt]
    exact seq_normal _

/-! ## The same effect -/

mutual
theorem run_eq (env : Env σ) (fuel : Nat) : ∀ (s : Stmt) (z : ZStmt) (sw : Bool) (x : σ), compile s = some z →
    Plain sw s → zigRun env fuel z x = goRun env fuel s x
  | .act n, z, _, x, h, _ => by simp [compile] at h; subst h; rfl
  | .block b, z, sw, x, h, hp => by
      simp only [compile, Option.map_eq_some_iff] at h
      obtain ⟨b', hb, rfl⟩ := h
      rw [zigRun, leaveBlock_none, goRun]
      exact all_eq env fuel b b' sw x hb hp
  | .cond init c t e, z, sw, x, h, hp => by
      obtain ⟨rfl, ht, he⟩ := hp
      simp only [compile] at h
      split at h
      · next t' e' h1 h2 =>
        simp at h; subst h
        simp only [zigRun, goRun, opt]
        rw [all_eq env fuel t t' sw x h1 ht, all_eq env fuel e e' sw x h2 he]
        rfl
      · simp at h
  | .loop label init c post b, z, sw, x, h, hp => by
      simp only [compile, Option.map_eq_some_iff] at h
      obtain ⟨b', hb, rfl⟩ := h
      rw [zigRun_withInit, zigRun, goRun]
      have : zigAll env fuel b' = goAll env fuel b := funext fun y => all_eq env fuel b b' false y hb hp
      rw [this]
  | .range label src b, z, sw, x, h, hp => by
      simp only [compile, Option.map_eq_some_iff] at h
      obtain ⟨b', hb, rfl⟩ := h
      obtain ⟨rfl, hp⟩ := hp
      rw [zigRun, goRun]
      have : zigRun env fuel (.block none b') = goAll env fuel b := funext fun y => by
        rw [zigRun, leaveBlock_none]; exact all_eq env fuel b b' false y hb hp
      rw [this]
  | .switch init tag cs, z, sw, x, h, hp => by
      simp only [compile, Option.map_eq_some_iff] at h
      obtain ⟨cs', hc, rfl⟩ := h
      rw [zigRun_withInit, zigRun, goRun]
      rw [match_eq env fuel _ cs cs' _ hc hp.2, else_eq env fuel cs cs' _ hc hp.2]
      rw [leaveSwitch_noBrk]
      split
      · next r hr => exact noBrk_match env fuel _ cs _ r hp.2 hr
      · split
        · next r hr => exact noBrk_default env fuel cs _ r hp.2 hr
        · exact noBrk_normal _
  | .brk l, z, _, x, h, _ => by simp [compile] at h; subst h; rfl
  | .cont l, z, _, x, h, _ => by simp [compile] at h; subst h; rfl
  | .ret, z, _, x, h, _ => by simp [compile] at h; subst h; rfl
  | .labelled _ _, z, _, x, h, _ => by simp [compile] at h

theorem all_eq (env : Env σ) (fuel : Nat) : ∀ (b : Stmts) (z : ZStmts) (sw : Bool) (x : σ), compileAll b = some z →
    PlainAll sw b → zigAll env fuel z x = goAll env fuel b x
  | .nil, z, _, x, h, _ => by simp [compileAll] at h; subst h; rfl
  | .cons s rest, z, sw, x, h, hp => by
      simp only [compileAll] at h
      split at h
      · next z' zs h1 h2 =>
        simp at h; subst h
        rw [zigAll, goAll, run_eq env fuel s z' sw x h1 hp.1]
        have : zigAll env fuel zs = goAll env fuel rest :=
          funext fun y => all_eq env fuel rest zs sw y h2 hp.2
        rw [this]
      · simp at h

theorem match_eq (env : Env σ) (fuel : Nat) (v : Int) : ∀ (cs : Clauses) (z : ZClauses) (x : σ),
    compileClauses cs = some z → PlainClauses cs → zigMatch env fuel v z x = goMatch env fuel v cs x
  | .nil, z, x, h, _ => by simp [compileClauses] at h; subst h; rfl
  | .cons g b f rest, z, x, h, hp => by
      simp only [compileClauses] at h
      split at h
      · next b' r h1 h2 =>
        simp at h; subst h
        rw [zigMatch, goMatch, hp.1, all_eq env fuel b b' true x h1 hp.2.1,
          match_eq env fuel v rest r x h2 hp.2.2]
        simp
      · simp at h

theorem else_eq (env : Env σ) (fuel : Nat) : ∀ (cs : Clauses) (z : ZClauses) (x : σ),
    compileClauses cs = some z → PlainClauses cs → zigElse env fuel z x = goDefault env fuel cs x
  | .nil, z, x, h, _ => by simp [compileClauses] at h; subst h; rfl
  | .cons g b f rest, z, x, h, hp => by
      simp only [compileClauses] at h
      split at h
      · next b' r h1 h2 =>
        simp at h; subst h
        rw [zigElse, goDefault, hp.1, all_eq env fuel b b' true x h1 hp.2.1,
          else_eq env fuel rest r x h2 hp.2.2]
        simp
      · simp at h
end

/-! ## Accepted by Zig -/

/-- The contexts of a Go statement and of what it is compiled to. -/
structure Same (c d : Ctx) (sw : Bool) : Prop where
  loops : c.loops = d.loops
  inLoop : c.inLoop = d.inLoop
  others : c.others = []
  brk : c.breakable = true → sw = false → c.inLoop = true

theorem Same.loop {c d : Ctx} {sw : Bool} (h : Same c d sw) (label : Option Nat) :
    Same (c.loop label) (d.loop label) false :=
  ⟨by simp [Ctx.loop, h.loops], rfl, h.others, fun _ _ => rfl⟩

theorem Same.switch {c d : Ctx} {sw : Bool} (h : Same c d sw) : Same { c with breakable := true } d true :=
  ⟨h.loops, h.inLoop, h.others, fun _ h => by simp at h⟩

theorem valid_withInit (d : Ctx) (init : Option Nat) (z : ZStmt) (h : ZigValid d z) :
    ZigValid d (withInit init z) := by
  cases init with
  | none => exact h
  | some i => exact ⟨trivial, h, trivial⟩

mutual
theorem valid_run : ∀ (s : Stmt) (c d : Ctx) (sw : Bool), GoValid c s → Plain sw s → Same c d sw →
    ∃ z, compile s = some z ∧ ZigValid d z
  | .act n, c, d, sw, _, _, _ => ⟨_, rfl, trivial⟩
  | .block b, c, d, sw, hg, hp, hs => by
      obtain ⟨b', hb, hv⟩ := valid_all b c d sw hg hp hs
      exact ⟨.block none b', by simp [compile, hb], hv⟩
  | .cond init k t e, c, d, sw, hg, hp, hs => by
      obtain ⟨rfl, ht, he⟩ := hp
      obtain ⟨t', ht', hv⟩ := valid_all t c d sw hg.1 ht hs
      obtain ⟨e', he', hw⟩ := valid_all e c d sw hg.2 he hs
      exact ⟨.cond k t' e', by simp [compile, ht', he'], hv, hw⟩
  | .loop label init k post b, c, d, sw, hg, hp, hs => by
      obtain ⟨b', hb, hv⟩ := valid_all b (c.loop label) (d.loop label) false hg hp (hs.loop label)
      exact ⟨withInit init (.loop label k post b'), by simp [compile, hb], valid_withInit d init _ hv⟩
  | .range label src b, c, d, sw, hg, hp, hs => by
      obtain ⟨rfl, hp⟩ := hp
      obtain ⟨b', hb, hv⟩ := valid_all b (c.loop none) (d.loop none) false hg hp (hs.loop none)
      exact ⟨.range none src (.block none b'), by simp [compile, hb], hv⟩
  | .switch init tag cs, c, d, sw, hg, hp, hs => by
      obtain ⟨cs', hc, hv, he⟩ := valid_clauses cs { c with breakable := true } d hg hp.2 hs.switch
      exact ⟨withInit init (.switch tag cs'), by simp [compile, hc],
        valid_withInit d init _ ⟨by rw [he]; exact hp.1, hv⟩⟩
  | .brk none, c, d, sw, hg, hp, hs => ⟨_, rfl, by
      have : d.inLoop = true := by rw [← hs.inLoop]; exact hs.brk hg hp
      exact this⟩
  | .brk (some l), c, d, sw, hg, hp, hs => ⟨_, rfl, by
      rcases hg with h | h
      · exact Or.inl (by rw [← hs.loops]; exact h)
      · rw [hs.others] at h; simp at h⟩
  | .cont none, c, d, sw, hg, hp, hs => ⟨_, rfl, by
      have : d.inLoop = true := by rw [← hs.inLoop]; exact hg
      exact this⟩
  | .cont (some l), c, d, sw, hg, hp, hs => ⟨_, rfl, by
      have : l ∈ d.loops := by rw [← hs.loops]; exact hg
      exact this⟩
  | .ret, c, d, sw, _, _, _ => ⟨_, rfl, trivial⟩
  | .labelled _ _, c, d, sw, _, hp, _ => by simp [Plain] at hp

theorem valid_all : ∀ (b : Stmts) (c d : Ctx) (sw : Bool), GoValidAll c b → PlainAll sw b → Same c d sw →
    ∃ z, compileAll b = some z ∧ ZigValidAll d z
  | .nil, c, d, sw, _, _, _ => ⟨_, rfl, trivial⟩
  | .cons s rest, c, d, sw, hg, hp, hs => by
      obtain ⟨z, hz, hv⟩ := valid_run s c d sw hg.1 hp.1 hs
      obtain ⟨zs, hzs, hw⟩ := valid_all rest c d sw hg.2 hp.2 hs
      exact ⟨.cons z zs, by simp [compileAll, hz, hzs], hv, hw⟩

theorem valid_clauses : ∀ (cs : Clauses) (c d : Ctx), GoValidClauses c cs → PlainClauses cs → Same c d true →
    ∃ z, compileClauses cs = some z ∧ ZigValidClauses d z ∧ hasElse z = hasDefault cs
  | .nil, c, d, _, _, _ => ⟨_, rfl, trivial, rfl⟩
  | .cons g b f rest, c, d, hg, hp, hs => by
      obtain ⟨b', hb, hv⟩ := valid_all b c d true hg.1 hp.2.1 hs
      obtain ⟨r, hr, hw, he⟩ := valid_clauses rest c d hg.2 hp.2.2 hs
      exact ⟨.cons g b' r, by simp [compileClauses, hb, hr], ⟨hv, hw⟩, by simp [hasElse, hasDefault, he]⟩
end

/-! ## Braces -/

mutual
theorem nest_run : ∀ (s : Stmt) (d : Nat) (rest : List Bool),
    nest d (braces s ++ rest) = nest (d + ifInits s) rest
  | .act _, d, rest => rfl
  | .block b, d, rest => by
      simp only [braces, List.cons_append, List.append_assoc, nest, ifInits]
      rw [nest_all b, Nat.add_right_comm]; rfl
  | .cond init c t e, d, rest => by
      cases init with
      | none =>
        simp only [braces, ifInits, Option.isSome_none, Bool.false_eq_true, if_false, List.nil_append,
          List.cons_append, List.append_assoc, nest]
        rw [nest_all t, Nat.add_right_comm]
        simp only [nest]
        rw [nest_else e]; congr 1; omega
      | some i =>
        simp only [braces, ifInits, Option.isSome_some, if_true, List.cons_append, List.nil_append,
          List.append_assoc, nest]
        rw [nest_all t, Nat.add_right_comm]
        simp only [nest]
        rw [nest_else e]; congr 1; omega
  | .loop label init c post b, d, rest => by
      cases init with
      | none =>
        simp only [braces, ifInits, Option.isSome_none, Bool.false_eq_true, if_false, List.nil_append,
          List.append_nil, List.cons_append, List.append_assoc, nest]
        rw [nest_all b, Nat.add_right_comm]; rfl
      | some i =>
        simp only [braces, ifInits, Option.isSome_some, if_true, List.cons_append, List.nil_append,
          List.append_assoc, nest]
        rw [nest_all b, show d + 1 + 1 + ifInitsAll b = d + ifInitsAll b + 1 + 1 by omega]; rfl
  | .range _ _ b, d, rest => by
      simp only [braces, List.cons_append, List.append_assoc, nest, ifInits]
      rw [nest_all b, Nat.add_right_comm]; rfl
  | .switch _ _ cs, d, rest => by
      simp only [braces, List.cons_append, List.nil_append, List.append_assoc, nest, ifInits]
      rw [nest_clauses cs, show d + 1 + 1 + ifInitsClauses cs = d + ifInitsClauses cs + 1 + 1 by omega]; rfl
  | .brk _, d, rest => rfl
  | .cont _, d, rest => rfl
  | .ret, d, rest => rfl
  | .labelled _ s, d, rest => by simp only [braces, ifInits]; exact nest_run s d rest

theorem nest_all : ∀ (b : Stmts) (d : Nat) (rest : List Bool),
    nest d (bracesAll b ++ rest) = nest (d + ifInitsAll b) rest
  | .nil, d, rest => rfl
  | .cons s r, d, rest => by
      simp only [bracesAll, List.append_assoc, ifInitsAll]
      rw [nest_run s, nest_all r, Nat.add_assoc]

theorem nest_else : ∀ (b : Stmts) (d : Nat) (rest : List Bool),
    nest d (bracesElse b ++ rest) = nest (d + ifInitsAll b) rest
  | .nil, d, rest => rfl
  | .cons s r, d, rest => by
      simp only [bracesElse, List.cons_append, List.append_assoc, List.nil_append, ifInitsAll, nest]
      rw [nest_run s, nest_all r, show d + 1 + ifInits s + ifInitsAll r = d + (ifInits s + ifInitsAll r) + 1 by omega]
      rfl

theorem nest_clauses : ∀ (cs : Clauses) (d : Nat) (rest : List Bool),
    nest d (bracesClauses cs ++ rest) = nest (d + ifInitsClauses cs) rest
  | .nil, d, rest => rfl
  | .cons _ b _ r, d, rest => by
      simp only [bracesClauses, List.cons_append, List.append_assoc, List.nil_append, ifInitsClauses, nest]
      rw [nest_all b, show d + 1 + ifInitsAll b = d + ifInitsAll b + 1 by omega]
      simp only [nest]
      rw [nest_clauses r, Nat.add_assoc]
end

end Verif.Zgo.Flow
