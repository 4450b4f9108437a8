import Verif.Zgo.EscLemmas

/-! # zgo escape analysis: lemmas about the scanner -/
namespace Verif.Zgo.Esc
open Spec Relation

/-! ## The operations of a part are operations of the whole -/

theorem opsEs_mem {e : Expr} {es : List Expr} (h : e ∈ es) : ∀ op ∈ opsE e, op ∈ opsEs es := by
  induction es with
  | nil => simp at h
  | cons x xs ih =>
    intro op hop
    rw [opsEs]
    rcases List.mem_cons.1 h with rfl | h
    · exact List.mem_append_left _ hop
    · exact List.mem_append_right _ (ih h op hop)

theorem opsSs_mem {s : Stmt} {ss : List Stmt} (h : s ∈ ss) : ∀ op ∈ opsS s, op ∈ opsSs ss := by
  induction ss with
  | nil => simp at h
  | cons x xs ih =>
    intro op hop
    rw [opsSs]
    rcases List.mem_cons.1 h with rfl | h
    · exact List.mem_append_left _ hop
    · exact List.mem_append_right _ (ih h op hop)

theorem opsElems_mem {n : Nat} {e : Expr} {es : List Expr} (h : e ∈ es) :
    (∀ op ∈ opsE e, op ∈ opsElems n es) ∧ .together n e.id ∈ opsElems n es := by
  induction es with
  | nil => simp at h
  | cons x xs ih =>
    rw [opsElems]
    rcases List.mem_cons.1 h with rfl | h
    · exact ⟨fun op hop => List.mem_cons_of_mem _ (List.mem_append_left _ hop), List.mem_cons_self⟩
    · exact ⟨fun op hop => List.mem_cons_of_mem _ (List.mem_append_right _ ((ih h).1 op hop)),
        List.mem_cons_of_mem _ (List.mem_append_right _ (ih h).2)⟩

theorem opsArgs_mem {e : Expr} {es : List Expr} (h : e ∈ es) :
    (∀ op ∈ opsE e, op ∈ opsArgs es) ∧ .route e.id argPlan ∈ opsArgs es := by
  induction es with
  | nil => simp at h
  | cons x xs ih =>
    rw [opsArgs]
    rcases List.mem_cons.1 h with rfl | h
    · exact ⟨fun op hop => List.mem_cons_of_mem _ (List.mem_append_left _ hop), List.mem_cons_self⟩
    · exact ⟨fun op hop => List.mem_cons_of_mem _ (List.mem_append_right _ ((ih h).1 op hop)),
        List.mem_cons_of_mem _ (List.mem_append_right _ (ih h).2)⟩

theorem opsVals_mem {vars vals : List Expr} {i : Nat} {x e : Expr}
    (hx : vars[i]? = some x) (he : vals[i]? = some e) :
    (∀ op ∈ opsE e, op ∈ opsVals vars vals) ∧ (∀ op ∈ assignOps x e, op ∈ opsVals vars vals) := by
  induction vars generalizing vals i with
  | nil => simp at hx
  | cons y ys ih =>
    cases vals with
    | nil => simp at he
    | cons w ws =>
      rw [opsVals]
      cases i with
      | zero =>
        simp only [List.getElem?_cons_zero, Option.some.injEq] at hx he
        subst hx he
        exact ⟨fun op h => List.mem_append_right _ (List.mem_append_left _ h),
          fun op h => List.mem_append_left _ h⟩
      | succ i =>
        simp only [List.getElem?_cons_succ] at hx he
        have := ih hx he
        exact ⟨fun op h => List.mem_append_right _ (List.mem_append_right _ (this.1 op h)),
          fun op h => List.mem_append_right _ (List.mem_append_right _ (this.2 op h))⟩

theorem opsRets_mem {tys : List Ty} {rs : List Expr} {i : Nat} {t : Ty} {e : Expr}
    (hx : tys[i]? = some t) (he : rs[i]? = some e) :
    (∀ op ∈ opsE e, op ∈ opsRets tys rs) ∧ (∀ op ∈ retOp t e, op ∈ opsRets tys rs) := by
  induction tys generalizing rs i with
  | nil => simp at hx
  | cons y ys ih =>
    cases rs with
    | nil => simp at he
    | cons w ws =>
      rw [opsRets]
      cases i with
      | zero =>
        simp only [List.getElem?_cons_zero, Option.some.injEq] at hx he
        subst hx he
        exact ⟨fun op h => List.mem_append_right _ (List.mem_append_left _ h),
          fun op h => List.mem_append_left _ h⟩
      | succ i =>
        simp only [List.getElem?_cons_succ] at hx he
        have := ih hx he
        exact ⟨fun op h => List.mem_append_right _ (List.mem_append_right _ (this.1 op h)),
          fun op h => List.mem_append_right _ (List.mem_append_right _ (this.2 op h))⟩

mutual
theorem inE_ops {a e : Expr} : InE a e → ∀ op ∈ opsE a, op ∈ opsE e
  | .here => fun _ h => h
  | .amp n x h => fun op ho => by rw [opsE]; exact List.mem_append_left _ (inE_ops h op ho)
  | .wrap n x h => fun op ho => by rw [opsE]; exact List.mem_append_left _ (inE_ops h op ho)
  | .binaryL n x y h => fun op ho => by
      rw [opsE]; exact List.mem_append_left _ (List.mem_append_left _ (inE_ops h op ho))
  | .binaryR n x y h => fun op ho => by
      rw [opsE]; exact List.mem_append_left _ (List.mem_append_right _ (inE_ops h op ho))
  | .selectorX n x s h => fun op ho => by
      rw [opsE]; exact List.mem_append_left _ (List.mem_append_left _ (inE_ops h op ho))
  | .selectorS n x s h => fun op ho => by
      rw [opsE]; exact List.mem_append_left _ (List.mem_append_right _ (inE_ops h op ho))
  | .indexX n x is h => fun op ho => by
      rw [opsE]; exact List.mem_append_left _ (List.mem_append_left _ (inE_ops h op ho))
  | .indexI n x is i hi h => fun op ho => by
      rw [opsE]; exact List.mem_append_left _ (List.mem_append_right _ (opsEs_mem hi op (inE_ops h op ho)))
  | .keyValueK n k x h => fun op ho => by
      rw [opsE]; exact List.mem_append_left _ (List.mem_append_left _ (inE_ops h op ho))
  | .keyValueV n k x h => fun op ho => by
      rw [opsE]; exact List.mem_append_left _ (List.mem_append_right _ (inE_ops h op ho))
  | .composite n es e he h => fun op ho => by
      rw [opsE]; exact (opsElems_mem he).1 op (inE_ops h op ho)
  | .function n body s hs h => fun op ho => by
      rw [opsE]; exact opsSs_mem hs op (eSInS_ops h op ho)
  | .await n c h => fun op ho => by rw [opsE]; exact inE_ops h op ho
  | .callF n f args h => fun op ho => by rw [opsE]; exact List.mem_append_left _ (inE_ops h op ho)
  | .callA n f args e he h => fun op ho => by
      rw [opsE]; exact List.mem_append_right _ ((opsArgs_mem he).1 op (inE_ops h op ho))
theorem eSInS_ops {a : Expr} {s : Stmt} : ESInS a s → ∀ op ∈ opsE a, op ∈ opsS s
  | .assignL d vars vals e he h => fun op ho => by
      rw [opsS]; exact List.mem_append_left _ (opsEs_mem he op (inE_ops h op ho))
  | .assignR d vars vals i x e hx he h => fun op ho => by
      rw [opsS]; exact List.mem_append_right _ ((opsVals_mem hx he).1 op (inE_ops h op ho))
  | .expr e h => fun op ho => by rw [opsS]; exact inE_ops h op ho
  | .spawnF f args h => fun op ho => by rw [opsS]; exact List.mem_append_left _ (inE_ops h op ho)
  | .spawnA f args e he h => fun op ho => by
      rw [opsS]; exact List.mem_append_right _ ((opsArgs_mem he).1 op (inE_ops h op ho))
  | .ret tys rs i t e ht he h => fun op ho => by
      rw [opsS]; exact (opsRets_mem ht he).1 op (inE_ops h op ho)
  | .sendC c v h => fun op ho => by
      rw [opsS]; exact List.mem_append_left _ (List.mem_append_left _ (inE_ops h op ho))
  | .sendV c v h => fun op ho => by
      rw [opsS]; exact List.mem_append_left _ (List.mem_append_right _ (inE_ops h op ho))
  | .rangeX k w x body h => fun op ho => by rw [opsS]; exact List.mem_append_left _ (inE_ops h op ho)
  | .rangeB k w x body s hs h => fun op ho => by
      rw [opsS]; exact List.mem_append_right _ (opsSs_mem hs op (eSInS_ops h op ho))
  | .nestPre k pre es post s hs h => fun op ho => by
      rw [opsS]; exact List.mem_append_left _ (List.mem_append_left _ (opsSs_mem hs op (eSInS_ops h op ho)))
  | .nestE k pre es post e he h => fun op ho => by
      rw [opsS]; exact List.mem_append_left _ (List.mem_append_right _ (opsEs_mem he op (inE_ops h op ho)))
  | .nestPost k pre es post s hs h => fun op ho => by
      rw [opsS]; exact List.mem_append_right _ (opsSs_mem hs op (eSInS_ops h op ho))
end

theorem inS_ops {a s : Stmt} (h : InS a s) : ∀ op ∈ opsS a, op ∈ opsS s := by
  induction h with
  | here => exact fun _ h => h
  | range k w x body s hs _ ih =>
    intro op ho; rw [opsS]; exact List.mem_append_right _ (opsSs_mem hs op (ih op ho))
  | nestPre k pre es post s hs _ ih =>
    intro op ho; rw [opsS]
    exact List.mem_append_left _ (List.mem_append_left _ (opsSs_mem hs op (ih op ho)))
  | nestPost k pre es post s hs _ ih =>
    intro op ho; rw [opsS]; exact List.mem_append_right _ (opsSs_mem hs op (ih op ho))
  | literal s n body t hf ht _ ih =>
    intro op ho
    apply eSInS_ops hf
    rw [opsE]
    exact opsSs_mem ht op (ih op ho)

theorem occurs_ops {prog : List Stmt} {a : Stmt} (h : Occurs prog a) : ∀ op ∈ opsS a, op ∈ opsSs prog := by
  obtain ⟨s, hs, h⟩ := h
  exact fun op ho => opsSs_mem hs op (inS_ops h op ho)

theorem occursE_ops {prog : List Stmt} {a : Expr} (h : OccursE prog a) : ∀ op ∈ opsE a, op ∈ opsSs prog := by
  obtain ⟨s, hs, h⟩ := h
  exact fun op ho => opsSs_mem hs op (eSInS_ops h op ho)

/-! ## The scanner's marks have no accomplices -/

theorem plain_append {a b : List Op} (ha : Plain a) (hb : Plain b) : Plain (a ++ b) := by
  intro n via h
  rcases List.mem_append.1 h with h | h
  · exact ha n via h
  · exact hb n via h

theorem plain_together {a b : Nat} {ops : List Op} (h : Plain ops) : Plain (.together a b :: ops) := by
  intro n via h1
  rcases List.mem_cons.1 h1 with h1 | h1
  · cases h1
  · exact h n via h1

theorem plain_nil : Plain [] := fun _ _ h => by cases h

theorem plain_route {n : Nat} {p : Plan} {ops : List Op} (hp : p.accomplices = []) (h : Plain ops) :
    Plain (.route n p :: ops) := by
  intro m via h1
  rcases List.mem_cons.1 h1 with h1 | h1
  · cases h1; exact hp
  · exact h m via h1

theorem plain_retOp (t : Ty) (e : Expr) : Plain (retOp t e) := by
  unfold retOp; split
  · exact plain_route rfl plain_nil
  · exact plain_nil

mutual
theorem plainE : ∀ e : Expr, Plain (opsE e)
  | .leaf _ => by rw [opsE]; exact plain_nil
  | .var n v => by rw [opsE]; intro _ _ h; simp at h
  | .amp n x => by rw [opsE]; exact plain_append (plainE x) (plain_together plain_nil)
  | .wrap n x => by rw [opsE]; exact plain_append (plainE x) (plain_together plain_nil)
  | .binary n x y => by
      rw [opsE]; exact plain_append (plain_append (plainE x) (plainE y)) (plain_together (plain_together plain_nil))
  | .selector n x y => by
      rw [opsE]; exact plain_append (plain_append (plainE x) (plainE y)) (plain_together (plain_together plain_nil))
  | .index n x is => by
      rw [opsE]; exact plain_append (plain_append (plainE x) (plainEs is)) (plain_together plain_nil)
  | .keyValue n k v => by
      rw [opsE]; exact plain_append (plain_append (plainE k) (plainE v)) (plain_together plain_nil)
  | .composite n es => by rw [opsE]; exact plainElems n es
  | .function _ body => by rw [opsE]; exact plainSs body
  | .await _ c => by rw [opsE]; exact plainE c
  | .call _ f args => by rw [opsE]; exact plain_append (plainE f) (plainArgs args)
theorem plainEs : ∀ es : List Expr, Plain (opsEs es)
  | [] => by rw [opsEs]; exact plain_nil
  | e :: es => by rw [opsEs]; exact plain_append (plainE e) (plainEs es)
theorem plainElems (n : Nat) : ∀ es : List Expr, Plain (opsElems n es)
  | [] => by rw [opsElems]; exact plain_nil
  | e :: es => by rw [opsElems]; exact plain_together (plain_append (plainE e) (plainElems n es))
theorem plainArgs : ∀ es : List Expr, Plain (opsArgs es)
  | [] => by rw [opsArgs]; exact plain_nil
  | e :: es => by rw [opsArgs]; exact plain_route rfl (plain_append (plainE e) (plainArgs es))
theorem plainVals : ∀ xs vs : List Expr, Plain (opsVals xs vs)
  | [], vs => by rw [opsVals]; exact plain_nil; simp
  | x :: xs, [] => by rw [opsVals]; exact plain_nil; simp
  | x :: xs, v :: vs => by
      rw [opsVals]
      exact plain_append (plain_route rfl (plain_together plain_nil)) (plain_append (plainE v) (plainVals xs vs))
theorem plainRets : ∀ (ts : List Ty) (es : List Expr), Plain (opsRets ts es)
  | [], vs => by rw [opsRets]; exact plain_nil; simp
  | x :: xs, [] => by rw [opsRets]; exact plain_nil; simp
  | t :: ts, e :: es => by
      rw [opsRets]; exact plain_append (plain_retOp t e) (plain_append (plainE e) (plainRets ts es))
theorem plainS : ∀ s : Stmt, Plain (opsS s)
  | .empty => by rw [opsS]; exact plain_nil
  | .bump _ => by rw [opsS]; exact plain_nil
  | .assign _ vars vals => by rw [opsS]; exact plain_append (plainEs vars) (plainVals vars vals)
  | .define n v _ => by rw [opsS]; intro _ _ h; simp at h
  | .expr e => by rw [opsS]; exact plainE e
  | .spawn f args => by rw [opsS]; exact plain_append (plainE f) (plainArgs args)
  | .ret tys rs => by rw [opsS]; exact plainRets tys rs
  | .send c v => by rw [opsS]; exact plain_append (plain_append (plainE c) (plainE v)) (plain_together plain_nil)
  | .range _ _ x body => by rw [opsS]; exact plain_append (plainE x) (plainSs body)
  | .nest _ pre es post => by
      rw [opsS]; exact plain_append (plain_append (plainSs pre) (plainEs es)) (plainSs post)
theorem plainSs : ∀ ss : List Stmt, Plain (opsSs ss)
  | [] => by rw [opsSs]; exact plain_nil
  | s :: ss => by rw [opsSs]; exact plain_append (plainS s) (plainSs ss)
end

/-! ## Connections -/

theorem linked_symm {ops : List Op} {a b : Key} (h : Linked ops a b) : Linked ops b a := by
  obtain ⟨op, ho, h⟩ := h
  refine ⟨op, ho, ?_⟩
  cases op with
  | route n v => exact h
  | together m n => exact ⟨h.1, h.2.elim (fun h => Or.inr ⟨h.2, h.1⟩) (fun h => Or.inl ⟨h.2, h.1⟩)⟩
  | info u n => exact h.elim (fun h => Or.inr ⟨h.2, h.1⟩) (fun h => Or.inl ⟨h.2, h.1⟩)

theorem conn_symm {ops : List Op} {a b : Key} (h : ReflTransGen (Linked ops) a b) :
    ReflTransGen (Linked ops) b a := by
  induction h with
  | refl => exact .refl
  | tail _ h2 ih => exact ReflTransGen.head (linked_symm h2) ih

theorem conn_together {ops : List Op} {a b : Nat} (h : Op.together a b ∈ ops) :
    ReflTransGen (Linked ops) (.node a) (.node b) := by
  by_cases hab : a = b
  · subst hab; exact .refl
  · exact .single ⟨_, h, hab, Or.inl ⟨rfl, rfl⟩⟩

theorem conn_info {ops : List Op} {u n : Nat} (h : Op.info u n ∈ ops) :
    ReflTransGen (Linked ops) (.node n) (.var u) :=
  .single ⟨_, h, Or.inr ⟨rfl, rfl⟩⟩

theorem carries_conn {ops : List Op} {e : Expr} {v : Var} (h : Carries e v)
    (hops : ∀ op ∈ opsE e, op ∈ ops) :
    ReflTransGen (Linked ops) (.node e.id) (.var v.unique) := by
  induction h with
  | var n v => exact conn_info (hops _ (by simp [opsE, Expr.id]))
  | amp n x v _ ih =>
    rw [opsE] at hops
    exact (conn_together (hops (.together n x.id) (by simp))).trans
      (ih (fun op ho => hops op (by simp [ho])))
  | wrap n x v _ ih =>
    rw [opsE] at hops
    exact (conn_together (hops (.together n x.id) (by simp))).trans
      (ih (fun op ho => hops op (by simp [ho])))
  | binaryL n x y v _ ih =>
    rw [opsE] at hops
    exact (conn_together (hops (.together n x.id) (by simp))).trans
      (ih (fun op ho => hops op (by simp [ho])))
  | binaryR n x y v _ ih =>
    rw [opsE] at hops
    exact (conn_together (hops (.together n y.id) (by simp))).trans
      (ih (fun op ho => hops op (by simp [ho])))
  | selectorX n x y v _ ih =>
    rw [opsE] at hops
    exact (conn_together (hops (.together n x.id) (by simp))).trans
      (ih (fun op ho => hops op (by simp [ho])))
  | selectorS n x y v _ ih =>
    rw [opsE] at hops
    exact (conn_together (hops (.together n y.id) (by simp))).trans
      (ih (fun op ho => hops op (by simp [ho])))
  | index n x is v _ ih =>
    rw [opsE] at hops
    exact (conn_together (hops (.together n x.id) (by simp))).trans
      (ih (fun op ho => hops op (by simp [ho])))
  | keyValue n k x v _ ih =>
    rw [opsE] at hops
    exact (conn_together (hops (.together n x.id) (by simp))).trans
      (ih (fun op ho => hops op (by simp [ho])))
  | composite n es e v he _ ih =>
    rw [opsE] at hops
    exact (conn_together (hops (.together n e.id) (opsElems_mem he).2)).trans
      (ih (fun op ho => hops op ((opsElems_mem he).1 op ho)))

theorem shares_conn {prog : List Stmt} {a b : Nat} (h : Shares prog a b) :
    ReflTransGen (Linked (opsSs prog)) (.var a) (.var b) := by
  induction h with
  | assign d vars vals i x e v w ho hx he hv hw =>
    have hops := occurs_ops ho
    rw [opsS] at hops
    have hm := opsVals_mem hx he
    have hxo : ∀ op ∈ opsE x, op ∈ opsSs prog := fun op h =>
      hops op (List.mem_append_left _ (opsEs_mem (List.mem_of_getElem? hx) op h))
    have heo : ∀ op ∈ opsE e, op ∈ opsSs prog := fun op h => hops op (List.mem_append_right _ (hm.1 op h))
    have hl : Op.together x.id e.id ∈ opsSs prog :=
      hops _ (List.mem_append_right _ (hm.2 _ (by simp [assignOps])))
    exact (conn_symm (carries_conn hv hxo)).trans ((conn_together hl).trans (carries_conn hw heo))
  | send c e v w ho hv hw =>
    have hops := occurs_ops ho
    rw [opsS] at hops
    have hl : Op.together c.id e.id ∈ opsSs prog := hops _ (by simp)
    exact (conn_symm (carries_conn hv (fun op h => hops op (by simp [h])))).trans
      ((conn_together hl).trans (carries_conn hw (fun op h => hops op (by simp [h]))))
  | expr e v w ho hv hw =>
    have hops := occursE_ops ho
    exact (conn_symm (carries_conn hv hops)).trans (carries_conn hw hops)
  | symm a b _ ih => exact conn_symm ih

theorem sink_ops {prog : List Stmt} {e : Expr} (h : Sink prog e) :
    (∀ op ∈ opsE e, op ∈ opsSs prog) ∧
      (Marked Plan.function (opsSs prog) (.node e.id) ∨ Marked Plan.containment (opsSs prog) (.node e.id)) := by
  cases h with
  | arg n f args e ho he =>
    have hops := occursE_ops ho
    rw [opsE] at hops
    exact ⟨fun op h => hops op (List.mem_append_right _ ((opsArgs_mem he).1 op h)),
      Or.inl ⟨e.id, argPlan, hops _ (List.mem_append_right _ (opsArgs_mem he).2), rfl, rfl⟩⟩
  | spawn f args e ho he =>
    have hops := occurs_ops ho
    rw [opsS] at hops
    exact ⟨fun op h => hops op (List.mem_append_right _ ((opsArgs_mem he).1 op h)),
      Or.inl ⟨e.id, argPlan, hops _ (List.mem_append_right _ (opsArgs_mem he).2), rfl, rfl⟩⟩
  | ret tys rs i t e ho ht he hr =>
    have hops := occurs_ops ho
    rw [opsS] at hops
    have hm := opsRets_mem ht he
    refine ⟨fun op h => hops op (hm.1 op h), Or.inl ⟨e.id, { function := true }, hops _ (hm.2 _ ?_), rfl, rfl⟩⟩
    rcases hr with rfl | rfl <;> simp [retOp, Ty.marked]
  | «global» d vars vals i n v e ho hx hp he =>
    have hops := occurs_ops ho
    rw [opsS] at hops
    have hm := opsVals_mem hx he
    refine ⟨fun op h => hops op (List.mem_append_right _ (hm.1 op h)),
      Or.inr ⟨e.id, assignPlan (.var n v), hops _ (List.mem_append_right _ (hm.2 _ (by simp [assignOps]))), rfl, ?_⟩⟩
    simpa [assignPlan, isGlobal] using hp
  | imported d vars vals i n p m v e ho hx hp he =>
    have hops := occurs_ops ho
    rw [opsS] at hops
    have hm := opsVals_mem hx he
    refine ⟨fun op h => hops op (List.mem_append_right _ (hm.1 op h)),
      Or.inr ⟨e.id, assignPlan (.selector n p (.var m v)),
        hops _ (List.mem_append_right _ (hm.2 _ (by simp [assignOps]))), rfl, ?_⟩⟩
    simpa [assignPlan, isGlobal] using hp

theorem use_info {prog : List Stmt} {n : Nat} {v : Var} (h : Use prog n v) :
    Op.info v.unique n ∈ opsSs prog := by
  rcases h with h | ⟨val, h⟩
  · exact occursE_ops h _ (by simp [opsE])
  · exact occurs_ops h _ (by simp [opsS])

/-! ## Every mark comes from a sink -/

/-- The mark is not empty. -/
def Real (via : Plan) : Prop :=
  via.block = true ∨ via.function = true ∨ via.goroutine = true ∨ via.containment = true

theorem real_assign {x : Expr} (h : Real (assignPlan x)) : isGlobal x = true := by
  rcases h with h | h | h | h <;>
    simp only [assignPlan, isOuterScopeTo, isFunctionDefined, Bool.false_eq_true] at h
  exact h

/-- Everything inside this expression occurs in the program. -/
def InsideE (prog : List Stmt) (e : Expr) : Prop := ∀ a, InE a e → OccursE prog a

/-- Everything inside this statement occurs in the program. -/
def InsideS (prog : List Stmt) (s : Stmt) : Prop :=
  (∀ a, ESInS a s → OccursE prog a) ∧ (∀ a, InS a s → Occurs prog a)

theorem global_sink {prog : List Stmt} {d : Bool} {vars vals : List Expr} {i : Nat} {x e : Expr}
    (ho : Occurs prog (.assign d vars vals)) (hx : vars[i]? = some x) (he : vals[i]? = some e)
    (hg : isGlobal x = true) : Sink prog e := by
  unfold isGlobal at hg
  split at hg
  · exact .global d vars vals i _ _ e ho hx hg he
  · exact .imported d vars vals i _ _ _ _ e ho hx hg he
  · cases hg

theorem real_ret {prog : List Stmt} {tys : List Ty} {rs : List Expr} {i : Nat} {t : Ty} {e : Expr}
    (ho : Occurs prog (.ret tys rs)) (ht : tys[i]? = some t) (he : rs[i]? = some e)
    {n : Nat} {via : Plan} (h : Op.route n via ∈ retOp t e) : ∃ x, Sink prog x := by
  refine ⟨e, .ret tys rs i t e ho ht he ?_⟩
  cases t with
  | string => exact Or.inr rfl
  | reference => exact Or.inl rfl
  | basic => simp [retOp, Ty.marked] at h
  | other => simp [retOp, Ty.marked] at h

theorem insideS_function {prog : List Stmt} {n : Nat} {body : List Stmt} (h : InsideE prog (.function n body))
    {s : Stmt} (hs : s ∈ body) : InsideS prog s := by
  constructor
  · intro a ha; exact h a (.function n body s hs ha)
  · intro a ha
    obtain ⟨t, ht, h2⟩ := h _ .here
    exact ⟨t, ht, .literal t n body s h2 hs ha⟩

mutual
theorem sinkE (prog : List Stmt) : ∀ (e : Expr), InsideE prog e → ∀ n via, Op.route n via ∈ opsE e → Real via →
    ∃ x, Sink prog x
  | .leaf _, _, n, via, h, _ => by simp [opsE] at h
  | .var _ _, _, n, via, h, _ => by simp [opsE] at h
  | .amp m x, hi, n, via, h, hr => by
      simp only [opsE, List.mem_append, List.mem_singleton, reduceCtorEq, or_false] at h
      exact sinkE prog x (fun a ha => hi a (.amp m x ha)) n via h hr
  | .wrap m x, hi, n, via, h, hr => by
      simp only [opsE, List.mem_append, List.mem_singleton, reduceCtorEq, or_false] at h
      exact sinkE prog x (fun a ha => hi a (.wrap m x ha)) n via h hr
  | .binary m x y, hi, n, via, h, hr => by
      simp only [opsE, List.mem_append, List.mem_cons, List.not_mem_nil, reduceCtorEq, or_false] at h
      rcases h with h | h
      · exact sinkE prog x (fun a ha => hi a (.binaryL m x y ha)) n via h hr
      · exact sinkE prog y (fun a ha => hi a (.binaryR m x y ha)) n via h hr
  | .selector m x y, hi, n, via, h, hr => by
      simp only [opsE, List.mem_append, List.mem_cons, List.not_mem_nil, reduceCtorEq, or_false] at h
      rcases h with h | h
      · exact sinkE prog x (fun a ha => hi a (.selectorX m x y ha)) n via h hr
      · exact sinkE prog y (fun a ha => hi a (.selectorS m x y ha)) n via h hr
  | .index m x is, hi, n, via, h, hr => by
      simp only [opsE, List.mem_append, List.mem_singleton, reduceCtorEq, or_false] at h
      rcases h with h | h
      · exact sinkE prog x (fun a ha => hi a (.indexX m x is ha)) n via h hr
      · exact sinkEs prog is (fun i hm a ha => hi a (.indexI m x is i hm ha)) n via h hr
  | .keyValue m k x, hi, n, via, h, hr => by
      simp only [opsE, List.mem_append, List.mem_singleton, reduceCtorEq, or_false] at h
      rcases h with h | h
      · exact sinkE prog k (fun a ha => hi a (.keyValueK m k x ha)) n via h hr
      · exact sinkE prog x (fun a ha => hi a (.keyValueV m k x ha)) n via h hr
  | .composite m es, hi, n, via, h, hr => by
      rw [opsE] at h
      exact sinkElems prog m es (fun i hm a ha => hi a (.composite m es i hm ha)) n via h hr
  | .function m body, hi, n, via, h, hr => by
      rw [opsE] at h
      exact sinkSs prog body (fun s hs => insideS_function hi hs) n via h hr
  | .await m c, hi, n, via, h, hr => by
      rw [opsE] at h
      exact sinkE prog c (fun a ha => hi a (.await m c ha)) n via h hr
  | .call m f args, hi, n, via, h, hr => by
      rw [opsE] at h
      rcases List.mem_append.1 h with h | h
      · exact sinkE prog f (fun a ha => hi a (.callF m f args ha)) n via h hr
      · cases hargs : args with
        | nil => rw [hargs] at h; simp [opsArgs] at h
        | cons e es => exact ⟨e, .arg m f args e (hi _ .here) (by rw [hargs]; exact List.mem_cons_self)⟩
theorem sinkEs (prog : List Stmt) : ∀ (es : List Expr), (∀ e ∈ es, InsideE prog e) →
    ∀ n via, Op.route n via ∈ opsEs es → Real via → ∃ x, Sink prog x
  | [], _, n, via, h, _ => by simp [opsEs] at h
  | e :: es, hi, n, via, h, hr => by
      rw [opsEs] at h
      rcases List.mem_append.1 h with h | h
      · exact sinkE prog e (hi e List.mem_cons_self) n via h hr
      · exact sinkEs prog es (fun x hx => hi x (List.mem_cons_of_mem _ hx)) n via h hr
theorem sinkElems (prog : List Stmt) (m : Nat) : ∀ (es : List Expr), (∀ e ∈ es, InsideE prog e) →
    ∀ n via, Op.route n via ∈ opsElems m es → Real via → ∃ x, Sink prog x
  | [], _, n, via, h, _ => by simp [opsElems] at h
  | e :: es, hi, n, via, h, hr => by
      rw [opsElems] at h
      rcases List.mem_cons.1 h with h | h
      · cases h
      rcases List.mem_append.1 h with h | h
      · exact sinkE prog e (hi e List.mem_cons_self) n via h hr
      · exact sinkElems prog m es (fun x hx => hi x (List.mem_cons_of_mem _ hx)) n via h hr
theorem sinkVals (prog : List Stmt) : ∀ (xs vs : List Expr),
    (∀ (i : Nat) x e, xs[i]? = some x → vs[i]? = some e → InsideE prog e ∧ (isGlobal x = true → Sink prog e)) →
    ∀ n via, Op.route n via ∈ opsVals xs vs → Real via → ∃ x, Sink prog x
  | [], vs, _, n, via, h, _ => by rw [opsVals] at h; cases h; simp
  | x :: xs, [], _, n, via, h, _ => by rw [opsVals] at h; cases h; simp
  | x :: xs, v :: vs, hi, n, via, h, hr => by
      rw [opsVals] at h
      have h0 := hi 0 x v rfl rfl
      rcases List.mem_append.1 h with h | h
      · simp only [assignOps, List.mem_cons, Op.route.injEq, reduceCtorEq, List.not_mem_nil, or_false] at h
        obtain ⟨rfl, rfl⟩ := h
        exact ⟨v, h0.2 (real_assign hr)⟩
      rcases List.mem_append.1 h with h | h
      · exact sinkE prog v h0.1 n via h hr
      · exact sinkVals prog xs vs (fun i x e hx he => hi (i + 1) x e (by simpa using hx) (by simpa using he)) n via h hr
theorem sinkRets (prog : List Stmt) : ∀ (ts : List Ty) (es : List Expr),
    (∀ (i : Nat) t e, ts[i]? = some t → es[i]? = some e →
      InsideE prog e ∧ (∀ n via, Op.route n via ∈ retOp t e → ∃ x, Sink prog x)) →
    ∀ n via, Op.route n via ∈ opsRets ts es → Real via → ∃ x, Sink prog x
  | [], vs, _, n, via, h, _ => by rw [opsRets] at h; cases h; simp
  | x :: xs, [], _, n, via, h, _ => by rw [opsRets] at h; cases h; simp
  | t :: ts, e :: es, hi, n, via, h, hr => by
      rw [opsRets] at h
      have h0 := hi 0 t e rfl rfl
      rcases List.mem_append.1 h with h | h
      · exact h0.2 n via h
      rcases List.mem_append.1 h with h | h
      · exact sinkE prog e h0.1 n via h hr
      · exact sinkRets prog ts es (fun i x e hx he => hi (i + 1) x e (by simpa using hx) (by simpa using he)) n via h hr
theorem sinkS (prog : List Stmt) : ∀ (s : Stmt), InsideS prog s → ∀ n via, Op.route n via ∈ opsS s → Real via →
    ∃ x, Sink prog x
  | .empty, _, n, via, h, _ => by simp [opsS] at h
  | .bump _, _, n, via, h, _ => by simp [opsS] at h
  | .assign d vars vals, hi, n, via, h, hr => by
      rw [opsS] at h
      rcases List.mem_append.1 h with h | h
      · exact sinkEs prog vars (fun e he a ha => hi.1 a (.assignL d vars vals e he ha)) n via h hr
      · refine sinkVals prog vars vals (fun i x e hx he => ⟨fun a ha => hi.1 a (.assignR d vars vals i x e hx he ha), ?_⟩) n via h hr
        exact fun hg => global_sink (hi.2 _ .here) hx he hg
  | .define _ _ _, _, n, via, h, _ => by simp [opsS] at h
  | .expr e, hi, n, via, h, hr => by
      rw [opsS] at h
      exact sinkE prog e (fun a ha => hi.1 a (.expr e ha)) n via h hr
  | .spawn f args, hi, n, via, h, hr => by
      rw [opsS] at h
      rcases List.mem_append.1 h with h | h
      · exact sinkE prog f (fun a ha => hi.1 a (.spawnF f args ha)) n via h hr
      · cases hargs : args with
        | nil => rw [hargs] at h; simp [opsArgs] at h
        | cons e es => exact ⟨e, .spawn f args e (hi.2 _ .here) (by rw [hargs]; exact List.mem_cons_self)⟩
  | .ret tys rs, hi, n, via, h, hr => by
      rw [opsS] at h
      exact sinkRets prog tys rs (fun i t e ht he =>
        ⟨fun a ha => hi.1 a (.ret tys rs i t e ht he ha), fun n via h => real_ret (hi.2 _ .here) ht he h⟩) n via h hr
  | .send c v, hi, n, via, h, hr => by
      simp only [opsS, List.mem_append, List.mem_singleton, reduceCtorEq, or_false] at h
      rcases h with h | h
      · exact sinkE prog c (fun a ha => hi.1 a (.sendC c v ha)) n via h hr
      · exact sinkE prog v (fun a ha => hi.1 a (.sendV c v ha)) n via h hr
  | .range k w x body, hi, n, via, h, hr => by
      rw [opsS] at h
      rcases List.mem_append.1 h with h | h
      · exact sinkE prog x (fun a ha => hi.1 a (.rangeX k w x body ha)) n via h hr
      · exact sinkSs prog body (fun s hs => ⟨fun a ha => hi.1 a (.rangeB k w x body s hs ha),
          fun a ha => hi.2 a (.range k w x body s hs ha)⟩) n via h hr
  | .nest k pre es post, hi, n, via, h, hr => by
      rw [opsS] at h
      rcases List.mem_append.1 h with h | h
      · rcases List.mem_append.1 h with h | h
        · exact sinkSs prog pre (fun s hs => ⟨fun a ha => hi.1 a (.nestPre k pre es post s hs ha),
            fun a ha => hi.2 a (.nestPre k pre es post s hs ha)⟩) n via h hr
        · exact sinkEs prog es (fun e he a ha => hi.1 a (.nestE k pre es post e he ha)) n via h hr
      · exact sinkSs prog post (fun s hs => ⟨fun a ha => hi.1 a (.nestPost k pre es post s hs ha),
          fun a ha => hi.2 a (.nestPost k pre es post s hs ha)⟩) n via h hr
theorem sinkSs (prog : List Stmt) : ∀ (ss : List Stmt), (∀ s ∈ ss, InsideS prog s) →
    ∀ n via, Op.route n via ∈ opsSs ss → Real via → ∃ x, Sink prog x
  | [], _, n, via, h, _ => by simp [opsSs] at h
  | s :: ss, hi, n, via, h, hr => by
      rw [opsSs] at h
      rcases List.mem_append.1 h with h | h
      · exact sinkS prog s (hi s List.mem_cons_self) n via h hr
      · exact sinkSs prog ss (fun x hx => hi x (List.mem_cons_of_mem _ hx)) n via h hr
end

theorem mark_sink {prog : List Stmt} {n : Nat} {via : Plan} (h : Op.route n via ∈ opsSs prog) (hr : Real via) :
    ∃ x, Sink prog x :=
  sinkSs prog prog (fun s hs => ⟨fun a ha => ⟨s, hs, ha⟩, fun a ha => ⟨s, hs, ha⟩⟩) n via h hr

end Verif.Zgo.Esc
