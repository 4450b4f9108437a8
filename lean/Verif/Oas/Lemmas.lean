import Verif.Oas.Spec

namespace Verif.Oas
open Spec

/-! ## What the result is, whatever the registry -/

mutual
def shape (env : Env) : Ty → Schema
  | .bool => .bool
  | .num k => numSchema k
  | .str => .str
  | .any => .any
  | .slice t => .arr (shape env t) 0
  | .array n t => .arr (shape env t) n
  | .map key t => .map (shape env key) (shape env t)
  | .pointer t => shape env t
  | .struct fs => .obj ((ownProps env fs).append (embProps env fs (ownNames fs)))
      (ownReq env fs ++ embReq env fs (ownNames fs))
  | .named id =>
    match env[id]? with
    | some d => .ref d.key
    | none => .any

def ownProps (env : Env) : Fields → Props
  | .nil => .nil
  | .cons f tag _ t rest => .cons (propName f tag) (shape env t) (ownProps env rest)
  | .embed _ _ _ rest => ownProps env rest

def embProps (env : Env) : Fields → List Name → Props
  | .nil, _ => .nil
  | .cons _ _ _ _ rest, own => embProps env rest own
  | .embed n _ inner rest, own =>
    if n ∈ own then embProps env rest own
    else ((ownProps env inner).append (embProps env inner (ownNames inner))).append (embProps env rest own)

def ownReq (env : Env) : Fields → List Name
  | .nil => []
  | .cons f tag opt t rest => (if isRequired env opt t then [propName f tag] else []) ++ ownReq env rest
  | .embed _ _ _ rest => ownReq env rest

def embReq (env : Env) : Fields → List Name → List Name
  | .nil, _ => []
  | .cons _ _ _ _ rest, own => embReq env rest own
  | .embed n _ inner rest, own =>
    if n ∈ own then embReq env rest own
    else (ownReq env inner ++ embReq env inner (ownNames inner)) ++ embReq env rest own
end

/-- A relation on registries kept by every declared type is kept by every type. -/
structure Rel (v : Visit) (R : Reg → Reg → Prop) : Prop where
  refl : ∀ r, R r r
  trans : ∀ a b c, R a b → R b c → R a c
  visit : ∀ r id s r', v r id = some (s, r') → R r r'

theorem joinFields_some {ps req o ps' req' r'} (h : joinFields ps req o = some (ps', req', r')) :
    ∃ qs q, o = some (qs, q, r') ∧ ps' = ps.append qs ∧ req' = req ++ q := by
  cases o with
  | none => simp [joinFields] at h
  | some o => obtain ⟨qs, q, r⟩ := o; simp only [joinFields, Option.some.injEq, Prod.mk.injEq] at h
              obtain ⟨rfl, rfl, rfl⟩ := h; exact ⟨qs, q, rfl, rfl, rfl⟩

mutual
theorem with_rel {env v R} (H : Rel v R) : ∀ t r s r', schemaWith env v t r = some (s, r') → R r r'
  | .bool, r, s, r', h => by simp [schemaWith] at h; rw [← h.2]; exact H.refl _
  | .num k, r, s, r', h => by simp [schemaWith] at h; rw [← h.2]; exact H.refl _
  | .str, r, s, r', h => by simp [schemaWith] at h; rw [← h.2]; exact H.refl _
  | .any, r, s, r', h => by simp [schemaWith] at h; rw [← h.2]; exact H.refl _
  | .slice t, r, s, r', h => by
    simp only [schemaWith] at h; split at h
    · rename_i s1 r1 h1; simp at h; rw [← h.2]; exact with_rel H t _ _ _ h1
    · cases h
  | .array n t, r, s, r', h => by
    simp only [schemaWith] at h; split at h
    · rename_i s1 r1 h1; simp at h; rw [← h.2]; exact with_rel H t _ _ _ h1
    · cases h
  | .map k t, r, s, r', h => by
    simp only [schemaWith] at h; split at h
    · rename_i s1 r1 h1; split at h
      · rename_i s2 r2 h2
        simp at h; rw [← h.2]; exact H.trans _ _ _ (with_rel H k _ _ _ h1) (with_rel H t _ _ _ h2)
      · cases h
    · cases h
  | .pointer t, r, s, r', h => with_rel H t r s r' (by simpa only [schemaWith] using h)
  | .struct fs, r, s, r', h => by
    simp only [schemaWith] at h; split at h
    · rename_i ps req r1 h1; split at h
      · rename_i ps2 req2 r2 h2
        obtain ⟨qs, q, h3, -, -⟩ := joinFields_some h2
        simp at h; rw [← h.2]; exact H.trans _ _ _ (own_rel H fs _ _ _ _ h1) (emb_rel H fs _ _ _ _ _ h3)
      · cases h
    · cases h
  | .named id, r, s, r', h => H.visit r id s r' (by simpa only [schemaWith] using h)

theorem own_rel {env v R} (H : Rel v R) : ∀ fs r ps req r', addOwn env v fs r = some (ps, req, r') → R r r'
  | .nil, r, ps, req, r', h => by simp [addOwn] at h; rw [← h.2.2]; exact H.refl _
  | .cons f tag opt t rest, r, ps, req, r', h => by
    simp only [addOwn] at h; split at h
    · rename_i s r1 h1
      obtain ⟨qs, q, h3, -, -⟩ := joinFields_some h
      exact H.trans _ _ _ (with_rel H t _ _ _ h1) (own_rel H rest _ _ _ _ h3)
    · cases h
  | .embed _ _ _ rest, r, ps, req, r', h => own_rel H rest r ps req r' (by simpa only [addOwn] using h)

theorem emb_rel {env v R} (H : Rel v R) : ∀ fs own r ps req r', addEmbedded env v fs own r = some (ps, req, r') →
    R r r'
  | .nil, own, r, ps, req, r', h => by simp [addEmbedded] at h; rw [← h.2.2]; exact H.refl _
  | .cons _ _ _ _ rest, own, r, ps, req, r', h =>
    emb_rel H rest own r ps req r' (by simpa only [addEmbedded] using h)
  | .embed n tag inner rest, own, r, ps, req, r', h => by
    simp only [addEmbedded] at h; split at h
    · exact emb_rel H rest own r ps req r' h
    · split at h
      · rename_i ps1 req1 r1 h1; split at h
        · rename_i ps2 req2 r2 h2
          obtain ⟨qs, q, h3, -, -⟩ := joinFields_some h2
          obtain ⟨qs', q', h4, -, -⟩ := joinFields_some h
          exact H.trans _ _ _ (H.trans _ _ _ (own_rel H inner _ _ _ _ h1) (emb_rel H inner _ _ _ _ _ h3))
            (emb_rel H rest _ _ _ _ _ h4)
        · cases h
      · cases h
end

/-- Registered types stay registered. -/
def Grows (a b : Reg) : Prop := ∀ k, (a k).isSome = true → (b k).isSome = true

theorem grows_set (r : Reg) (k s) : Grows r (r.set k s) := by
  intro k' h; unfold Reg.set; split <;> simp_all

theorem set_self (r : Reg) (k s) : (r.set k s) k = some s := by simp [Reg.set]
theorem set_other (r : Reg) {k k'} (s) (h : k' ≠ k) : (r.set k s) k' = r k' := by simp [Reg.set, h]

theorem visit_grows (env : Env) : ∀ n, Rel (visit env n) Grows
  | 0 => ⟨fun _ _ h => h, fun _ _ _ h g k x => g k (h k x), fun _ _ _ _ h => by simp [visit] at h⟩
  | n + 1 => ⟨fun _ _ h => h, fun _ _ _ h g k x => g k (h k x), fun r id s r' h => by
      have IH := visit_grows env n
      simp only [visit] at h
      split at h
      · cases h
      · rename_i d hd
        split at h
        · simp at h; rw [← h.2]; exact fun _ h => h
        · split at h
          · cases h
          · rename_i s1 r1 h1
            have g := with_rel IH _ _ _ _ h1
            have g0 : Grows r r1 := fun k x => g k (grows_set r d.key .any k x)
            split at h
            · simp at h; rw [← h.2]; exact g0
            · simp at h; rw [← h.2]; exact fun k x => grows_set _ _ _ k (g0 k x)⟩

/-! ## Termination -/

/-- The declarations without an entry. -/
def missing (env : Env) (r : Reg) : Nat := (env.filter fun d => (r d.key).isNone).length

theorem missing_grows {env r r'} (g : Grows r r') : missing env r' ≤ missing env r := by
  unfold missing
  induction env with
  | nil => simp
  | cons d env ih =>
    have := g d.key
    simp only [List.filter_cons]
    cases hr : r d.key <;> cases hr' : r' d.key <;> simp_all <;> omega

theorem missing_set {env : Env} {r : Reg} {d s} (hd : d ∈ env) (h : ¬ (r d.key).isSome = true) :
    missing env (r.set d.key s) < missing env r := by
  unfold missing
  induction env with
  | nil => simp at hd
  | cons e env ih =>
    simp only [List.filter_cons]
    by_cases hed : e.key = d.key
    · have h1 : ((r.set d.key s) e.key).isNone = false := by rw [hed, set_self]; rfl
      have h2 : (r e.key).isNone = true := by rw [hed]; simpa using h
      have := missing_grows (env := env) (grows_set r d.key s)
      unfold missing at this
      simp only [h1, h2, if_true]; simp; omega
    · have : d ∈ env := by
        rcases List.mem_cons.1 hd with rfl | h
        · exact absurd rfl hed
        · exact h
      have := ih this
      rw [set_other _ _ hed]
      split <;> simp <;> omega

mutual
theorem with_total {env v} (H : Rel v Grows) {m b} (T : ∀ r id, missing env r ≤ m → id < b → (v r id).isSome = true) :
    ∀ t r, missing env r ≤ m → Below b t → (schemaWith env v t r).isSome = true
  | .bool, r, hm, hb => by simp [schemaWith]
  | .num k, r, hm, hb => by simp [schemaWith]
  | .str, r, hm, hb => by simp [schemaWith]
  | .any, r, hm, hb => by simp [schemaWith]
  | .slice t, r, hm, hb => by
    obtain ⟨⟨s, r'⟩, h⟩ := Option.isSome_iff_exists.1 (with_total H T t r hm (by simpa only [Below] using hb))
    simp [schemaWith, h]
  | .array n t, r, hm, hb => by
    obtain ⟨⟨s, r'⟩, h⟩ := Option.isSome_iff_exists.1 (with_total H T t r hm (by simpa only [Below] using hb))
    simp [schemaWith, h]
  | .map k t, r, hm, hb => by
    simp only [Below] at hb
    obtain ⟨⟨s, r'⟩, h⟩ := Option.isSome_iff_exists.1 (with_total H T k r hm hb.1)
    obtain ⟨⟨s2, r2⟩, h2⟩ := Option.isSome_iff_exists.1
      (with_total H T t r' (Nat.le_trans (missing_grows (with_rel H _ _ _ _ h)) hm) hb.2)
    simp [schemaWith, h, h2]
  | .pointer t, r, hm, hb => by
    simpa only [schemaWith] using with_total H T t r hm (by simpa only [Below] using hb)
  | .struct fs, r, hm, hb => by
    simp only [Below] at hb
    obtain ⟨⟨ps, q, r'⟩, h⟩ := Option.isSome_iff_exists.1 (own_total H T fs r hm hb)
    obtain ⟨⟨ps2, q2, r2⟩, h2⟩ := Option.isSome_iff_exists.1
      (emb_total H T fs (ownNames fs) r' (Nat.le_trans (missing_grows (own_rel H _ _ _ _ _ h)) hm) hb)
    simp [schemaWith, h, h2, joinFields]
  | .named id, r, hm, hb => by simpa only [schemaWith] using T r id hm (by simpa only [Below] using hb)

theorem own_total {env v} (H : Rel v Grows) {m b} (T : ∀ r id, missing env r ≤ m → id < b → (v r id).isSome = true) :
    ∀ fs r, missing env r ≤ m → BelowFields b fs → (addOwn env v fs r).isSome = true
  | .nil, r, hm, hb => by simp [addOwn]
  | .cons f tag opt t rest, r, hm, hb => by
    simp only [BelowFields] at hb
    obtain ⟨⟨s, r'⟩, h⟩ := Option.isSome_iff_exists.1 (with_total H T t r hm hb.1)
    obtain ⟨⟨ps2, q2, r2⟩, h2⟩ := Option.isSome_iff_exists.1
      (own_total H T rest r' (Nat.le_trans (missing_grows (with_rel H _ _ _ _ h)) hm) hb.2)
    simp [addOwn, h, h2, joinFields]
  | .embed _ _ _ rest, r, hm, hb => by
    simp only [BelowFields] at hb
    simpa only [addOwn] using own_total H T rest r hm hb.2

theorem emb_total {env v} (H : Rel v Grows) {m b} (T : ∀ r id, missing env r ≤ m → id < b → (v r id).isSome = true) :
    ∀ fs own r, missing env r ≤ m → BelowFields b fs → (addEmbedded env v fs own r).isSome = true
  | .nil, own, r, hm, hb => by simp [addEmbedded]
  | .cons f tag opt t rest, own, r, hm, hb => by
    simp only [BelowFields] at hb
    simpa only [addEmbedded] using emb_total H T rest own r hm hb.2
  | .embed n tag inner rest, own, r, hm, hb => by
    simp only [BelowFields] at hb
    simp only [addEmbedded]; split
    · exact emb_total H T rest own r hm hb.2
    · obtain ⟨⟨ps, q, r'⟩, h⟩ := Option.isSome_iff_exists.1 (own_total H T inner r hm hb.1)
      have m1 := Nat.le_trans (missing_grows (own_rel H _ _ _ _ _ h)) hm
      obtain ⟨⟨ps2, q2, r2⟩, h2⟩ := Option.isSome_iff_exists.1 (emb_total H T inner (ownNames inner) r' m1 hb.1)
      have m2 := Nat.le_trans (missing_grows (emb_rel H _ _ _ _ _ _ h2)) m1
      obtain ⟨⟨ps3, q3, r3⟩, h3⟩ := Option.isSome_iff_exists.1 (emb_total H T rest own r2 m2 hb.2)
      simp [h, h2, h3, joinFields]
end

theorem visit_total {env : Env} (D : Declared env) : ∀ n r id, missing env r < n → id < env.length →
    (visit env n r id).isSome = true
  | 0, r, id, h, _ => absurd h (by omega)
  | n + 1, r, id, h, hid => by
    simp only [visit, List.getElem?_eq_getElem hid]
    split
    · simp
    · rename_i hn
      have hmem : env[id] ∈ env := List.getElem_mem hid
      have hm := missing_set (s := .any) hmem hn
      obtain ⟨⟨s, r'⟩, h1⟩ := Option.isSome_iff_exists.1
        (with_total (env := env) (visit_grows env n) (m := n - 1) (b := env.length)
          (fun r id h1 h2 => visit_total D n r id (by omega) h2) (env[id]).body (r.set (env[id]).key .any)
          (by omega) (D _ hmem))
      simp only [h1]
      split <;> simp

/-! ## References -/

theorem refsOf_append : ∀ (p q : Props), refsOf (p.append q) = refsOf p ++ refsOf q
  | .nil, q => by simp [Props.append, refsOf]
  | .cons n s rest, q => by simp [Props.append, refsOf, refsOf_append rest q]

/-- All references in the registry resolve. -/
def Closed (r : Reg) : Prop := ∀ k s, r k = some s → ∀ k' ∈ refs s, (r k').isSome = true

structure Clo (v : Visit) : Prop where
  visit : ∀ r id s r', Closed r → v r id = some (s, r') → Closed r' ∧ ∀ k ∈ refs s, (r' k).isSome = true

mutual
theorem with_closed {env v} (G : Rel v Grows) (H : Clo v) : ∀ t r s r', Closed r → schemaWith env v t r = some (s, r') →
    Closed r' ∧ ∀ k ∈ refs s, (r' k).isSome = true
  | .bool, r, s, r', c, h => by simp [schemaWith] at h; obtain ⟨rfl, rfl⟩ := h; exact ⟨c, by simp [refs]⟩
  | .num k, r, s, r', c, h => by
    simp [schemaWith] at h; obtain ⟨rfl, rfl⟩ := h; exact ⟨c, by cases k <;> simp [numSchema, refs]⟩
  | .str, r, s, r', c, h => by simp [schemaWith] at h; obtain ⟨rfl, rfl⟩ := h; exact ⟨c, by simp [refs]⟩
  | .any, r, s, r', c, h => by simp [schemaWith] at h; obtain ⟨rfl, rfl⟩ := h; exact ⟨c, by simp [refs]⟩
  | .slice t, r, s, r', c, h => by
    simp only [schemaWith] at h; split at h
    · rename_i s1 r1 h1; simp at h; obtain ⟨rfl, rfl⟩ := h
      simpa only [refs] using with_closed G H t _ _ _ c h1
    · cases h
  | .array n t, r, s, r', c, h => by
    simp only [schemaWith] at h; split at h
    · rename_i s1 r1 h1; simp at h; obtain ⟨rfl, rfl⟩ := h
      simpa only [refs] using with_closed G H t _ _ _ c h1
    · cases h
  | .map k t, r, s, r', c, h => by
    simp only [schemaWith] at h; split at h
    · rename_i s1 r1 h1; split at h
      · rename_i s2 r2 h2
        simp at h; obtain ⟨rfl, rfl⟩ := h
        obtain ⟨c1, f1⟩ := with_closed G H k _ _ _ c h1
        obtain ⟨c2, f2⟩ := with_closed G H t _ _ _ c1 h2
        refine ⟨c2, fun k hk => ?_⟩
        simp only [refs, List.mem_append] at hk
        rcases hk with hk | hk
        · exact with_rel G t _ _ _ h2 k (f1 k hk)
        · exact f2 k hk
      · cases h
    · cases h
  | .pointer t, r, s, r', c, h => with_closed G H t r s r' c (by simpa only [schemaWith] using h)
  | .struct fs, r, s, r', c, h => by
    simp only [schemaWith] at h; split at h
    · rename_i ps req r1 h1; split at h
      · rename_i ps2 req2 r2 h2
        obtain ⟨qs, q, h3, rfl, -⟩ := joinFields_some h2
        simp at h; obtain ⟨rfl, rfl⟩ := h
        obtain ⟨c1, f1⟩ := own_closed G H fs _ _ _ _ c h1
        obtain ⟨c2, f2⟩ := emb_closed G H fs _ _ _ _ _ c1 h3
        refine ⟨c2, fun k hk => ?_⟩
        simp only [refs, refsOf_append, List.mem_append] at hk
        rcases hk with hk | hk
        · exact emb_rel G fs _ _ _ _ _ h3 k (f1 k hk)
        · exact f2 k hk
      · cases h
    · cases h
  | .named id, r, s, r', c, h => H.visit r id s r' c (by simpa only [schemaWith] using h)

theorem own_closed {env v} (G : Rel v Grows) (H : Clo v) : ∀ fs r ps req r', Closed r →
    addOwn env v fs r = some (ps, req, r') → Closed r' ∧ ∀ k ∈ refsOf ps, (r' k).isSome = true
  | .nil, r, ps, req, r', c, h => by
    simp [addOwn] at h; obtain ⟨rfl, -, rfl⟩ := h; exact ⟨c, by simp [refsOf]⟩
  | .cons f tag opt t rest, r, ps, req, r', c, h => by
    simp only [addOwn] at h; split at h
    · rename_i s r1 h1
      obtain ⟨qs, q, h3, rfl, -⟩ := joinFields_some h
      obtain ⟨c1, f1⟩ := with_closed G H t _ _ _ c h1
      obtain ⟨c2, f2⟩ := own_closed G H rest _ _ _ _ c1 h3
      refine ⟨c2, fun k hk => ?_⟩
      simp only [refsOf, refsOf_append, List.mem_append, List.append_nil] at hk
      rcases hk with hk | hk
      · exact own_rel G rest _ _ _ _ h3 k (f1 k hk)
      · exact f2 k hk
    · cases h
  | .embed _ _ _ rest, r, ps, req, r', c, h => own_closed G H rest r ps req r' c (by simpa only [addOwn] using h)

theorem emb_closed {env v} (G : Rel v Grows) (H : Clo v) : ∀ fs own r ps req r', Closed r →
    addEmbedded env v fs own r = some (ps, req, r') → Closed r' ∧ ∀ k ∈ refsOf ps, (r' k).isSome = true
  | .nil, own, r, ps, req, r', c, h => by
    simp [addEmbedded] at h; obtain ⟨rfl, -, rfl⟩ := h; exact ⟨c, by simp [refsOf]⟩
  | .cons _ _ _ _ rest, own, r, ps, req, r', c, h =>
    emb_closed G H rest own r ps req r' c (by simpa only [addEmbedded] using h)
  | .embed n tag inner rest, own, r, ps, req, r', c, h => by
    simp only [addEmbedded] at h; split at h
    · exact emb_closed G H rest own r ps req r' c h
    · split at h
      · rename_i ps1 req1 r1 h1; split at h
        · rename_i ps2 req2 r2 h2
          obtain ⟨qs, q, h3, rfl, -⟩ := joinFields_some h2
          obtain ⟨qs', q', h4, rfl, -⟩ := joinFields_some h
          obtain ⟨c1, f1⟩ := own_closed G H inner _ _ _ _ c h1
          obtain ⟨c2, f2⟩ := emb_closed G H inner _ _ _ _ _ c1 h3
          obtain ⟨c3, f3⟩ := emb_closed G H rest _ _ _ _ _ c2 h4
          refine ⟨c3, fun k hk => ?_⟩
          simp only [refsOf_append, List.mem_append] at hk
          rcases hk with (hk | hk) | hk
          · exact emb_rel G rest _ _ _ _ _ h4 k (emb_rel G inner _ _ _ _ _ h3 k (f1 k hk))
          · exact emb_rel G rest _ _ _ _ _ h4 k (f2 k hk)
          · exact f3 k hk
        · cases h
      · cases h
end

theorem closed_set {r : Reg} {k s} (c : Closed r) (h : ∀ k' ∈ refs s, (r k').isSome = true) : Closed (r.set k s) := by
  intro k1 s1 h1 k2 hk
  by_cases e : k1 = k
  · subst e; rw [set_self] at h1; cases h1
    exact grows_set _ _ _ _ (h k2 hk)
  · rw [set_other _ _ e] at h1
    exact grows_set _ _ _ _ (c k1 s1 h1 k2 hk)

theorem visit_closed (env : Env) : ∀ n, Clo (visit env n)
  | 0 => ⟨fun r id s r' _ h => by simp [visit] at h⟩
  | n + 1 => ⟨fun r id s r' c h => by
      simp only [visit] at h
      split at h
      · cases h
      · rename_i d hd
        split at h
        · rename_i hs
          simp at h; obtain ⟨rfl, rfl⟩ := h; exact ⟨c, by simpa [refs] using hs⟩
        · split at h
          · cases h
          · rename_i s1 r1 h1
            obtain ⟨c1, f1⟩ := with_closed (visit_grows env n) (visit_closed env n) _ _ _ _
              (closed_set (k := d.key) (s := .any) c (by simp [refs])) h1
            split at h
            · simp at h; obtain ⟨rfl, rfl⟩ := h; exact ⟨c1, f1⟩
            · simp at h; obtain ⟨rfl, rfl⟩ := h
              exact ⟨closed_set c1 f1, by simp [refs, set_self]⟩⟩

end Verif.Oas
