import Verif.Oas.Lemmas
import Mathlib.Tactic.Tauto

namespace Verif.Oas
open Spec

/-! ## The registry -/

mutual
/-- The declared types a type mentions have an entry. -/
def Known (env : Env) (r : Reg) : Ty → Prop
  | .slice t => Known env r t
  | .array _ t => Known env r t
  | .map key t => Known env r key ∧ Known env r t
  | .pointer t => Known env r t
  | .struct fs => KnownFields env r fs
  | .bool => True
  | .num _ => True
  | .str => True
  | .any => True
  | .named i => ∀ d, env[i]? = some d → (r d.key).isSome = true

def KnownFields (env : Env) (r : Reg) : Fields → Prop
  | .nil => True
  | .cons _ _ _ t rest => Known env r t ∧ KnownFields env r rest
  | .embed _ _ inner rest => KnownFields env r inner ∧ KnownFields env r rest
end

mutual
theorem known_grows {env r r'} (g : Grows r r') : ∀ t, Known env r t → Known env r' t
  | .bool, _ => by simp [Known]
  | .num _, _ => by simp [Known]
  | .str, _ => by simp [Known]
  | .any, _ => by simp [Known]
  | .slice t, h => by simp only [Known] at h ⊢; exact known_grows g t h
  | .array _ t, h => by simp only [Known] at h ⊢; exact known_grows g t h
  | .map k t, h => by simp only [Known] at h ⊢; exact ⟨known_grows g k h.1, known_grows g t h.2⟩
  | .pointer t, h => by simp only [Known] at h ⊢; exact known_grows g t h
  | .struct fs, h => by simp only [Known] at h ⊢; exact knownFields_grows g fs h
  | .named i, h => by simp only [Known] at h ⊢; exact fun d hd => g _ (h d hd)
theorem knownFields_grows {env r r'} (g : Grows r r') : ∀ fs, KnownFields env r fs → KnownFields env r' fs
  | .nil, _ => by simp [KnownFields]
  | .cons _ _ _ t rest, h => by
    simp only [KnownFields] at h ⊢; exact ⟨known_grows g t h.1, knownFields_grows g rest h.2⟩
  | .embed _ _ inner rest, h => by
    simp only [KnownFields] at h ⊢; exact ⟨knownFields_grows g inner h.1, knownFields_grows g rest h.2⟩
end

/-- The entries that are not pending are those of the declarations. -/
def Inv (env : Env) (P : Key → Prop) (r : Reg) : Prop :=
  ∀ d ∈ env, ∀ s, r d.key = some s → P d.key ∨ (s = shape env d.body ∧ Known env r d.body)

/-- No embedded type's name is that of a field of the struct itself. -/
def NoClash (own : List Name) : Fields → Prop
  | .nil => True
  | .cons _ _ _ _ rest => NoClash own rest
  | .embed n _ _ rest => n ∉ own ∧ NoClash own rest

mutual
/-- Nothing embedded is skipped, all the way down. -/
def Clean : Ty → Prop
  | .slice t => Clean t
  | .array _ t => Clean t
  | .map key t => Clean key ∧ Clean t
  | .pointer t => Clean t
  | .struct fs => NoClash (ownNames fs) fs ∧ CleanFields fs
  | .bool => True
  | .num _ => True
  | .str => True
  | .any => True
  | .named _ => True

def CleanFields : Fields → Prop
  | .nil => True
  | .cons _ _ _ t rest => Clean t ∧ CleanFields rest
  | .embed _ _ inner rest => NoClash (ownNames inner) inner ∧ CleanFields inner ∧ CleanFields rest
end

/-- The types of the struct's own fields are known. -/
def KnownOwn (env : Env) (r : Reg) : Fields → Prop
  | .nil => True
  | .cons _ _ _ t rest => Known env r t ∧ KnownOwn env r rest
  | .embed _ _ _ rest => KnownOwn env r rest

structure Sound (env : Env) (v : Visit) : Prop where
  visit : ∀ P r id s r', Inv env P r → v r id = some (s, r') →
    Inv env P r' ∧ s = shape env (.named id) ∧ Known env r' (.named id)

mutual
theorem with_sound {env v} (G : Rel v Grows) (H : Sound env v) (P : Key → Prop) : ∀ t r s r', Clean t → Inv env P r →
    schemaWith env v t r = some (s, r') → Inv env P r' ∧ s = shape env t ∧ Known env r' t
  | .bool, r, s, r', cl, i, h => by
    simp [schemaWith] at h; obtain ⟨rfl, rfl⟩ := h; exact ⟨i, by simp [shape], by simp [Known]⟩
  | .num k, r, s, r', cl, i, h => by
    simp [schemaWith] at h; obtain ⟨rfl, rfl⟩ := h; exact ⟨i, by simp [shape], by simp [Known]⟩
  | .str, r, s, r', cl, i, h => by
    simp [schemaWith] at h; obtain ⟨rfl, rfl⟩ := h; exact ⟨i, by simp [shape], by simp [Known]⟩
  | .any, r, s, r', cl, i, h => by
    simp [schemaWith] at h; obtain ⟨rfl, rfl⟩ := h; exact ⟨i, by simp [shape], by simp [Known]⟩
  | .slice t, r, s, r', cl, i, h => by
    simp only [schemaWith] at h; split at h
    · rename_i s1 r1 h1; simp at h; obtain ⟨rfl, rfl⟩ := h
      obtain ⟨a, rfl, c⟩ := with_sound G H P t _ _ _ (by simpa only [Clean] using cl) i h1
      exact ⟨a, by simp [shape], by simpa only [Known] using c⟩
    · cases h
  | .array n t, r, s, r', cl, i, h => by
    simp only [schemaWith] at h; split at h
    · rename_i s1 r1 h1; simp at h; obtain ⟨rfl, rfl⟩ := h
      obtain ⟨a, rfl, c⟩ := with_sound G H P t _ _ _ (by simpa only [Clean] using cl) i h1
      exact ⟨a, by simp [shape], by simpa only [Known] using c⟩
    · cases h
  | .map k t, r, s, r', cl, i, h => by
    simp only [Clean] at cl
    simp only [schemaWith] at h; split at h
    · rename_i s1 r1 h1; split at h
      · rename_i s2 r2 h2
        simp at h; obtain ⟨rfl, rfl⟩ := h
        obtain ⟨a, rfl, c⟩ := with_sound G H P k _ _ _ cl.1 i h1
        obtain ⟨a2, rfl, c2⟩ := with_sound G H P t _ _ _ cl.2 a h2
        exact ⟨a2, by simp [shape], by simpa only [Known] using ⟨known_grows (with_rel G _ _ _ _ h2) k c, c2⟩⟩
      · cases h
    · cases h
  | .pointer t, r, s, r', cl, i, h => by
    obtain ⟨a, b, c⟩ := with_sound G H P t r s r' (by simpa only [Clean] using cl) i (by simpa only [schemaWith] using h)
    exact ⟨a, by simpa only [shape] using b, by simpa only [Known] using c⟩
  | .struct fs, r, s, r', cl, i, h => by
    simp only [Clean] at cl
    simp only [schemaWith] at h; split at h
    · rename_i ps req r1 h1; split at h
      · rename_i ps2 req2 r2 h2
        obtain ⟨qs, q, h3, rfl, rfl⟩ := joinFields_some h2
        simp at h; obtain ⟨rfl, rfl⟩ := h
        obtain ⟨a, rfl, rfl, c⟩ := own_sound G H P fs _ _ _ _ cl.2 i h1
        obtain ⟨a2, rfl, rfl, c2⟩ := emb_sound G H P fs _ _ _ _ _ cl.1 cl.2 a h3
        exact ⟨a2, by simp [shape], by simpa only [Known] using c2 (c _ (emb_rel G _ _ _ _ _ _ h3))⟩
      · cases h
    · cases h
  | .named id, r, s, r', cl, i, h => H.visit P r id s r' i (by simpa only [schemaWith] using h)

theorem own_sound {env v} (G : Rel v Grows) (H : Sound env v) (P : Key → Prop) : ∀ fs r ps req r', CleanFields fs →
    Inv env P r → addOwn env v fs r = some (ps, req, r') →
    Inv env P r' ∧ ps = ownProps env fs ∧ req = ownReq env fs ∧ ∀ r2, Grows r' r2 → KnownOwn env r2 fs
  | .nil, r, ps, req, r', cl, i, h => by
    simp [addOwn] at h; obtain ⟨rfl, rfl, rfl⟩ := h; exact ⟨i, by simp [ownProps], by simp [ownReq], by simp [KnownOwn]⟩
  | .cons f tag opt t rest, r, ps, req, r', cl, i, h => by
    simp only [CleanFields] at cl
    simp only [addOwn] at h; split at h
    · rename_i s r1 h1
      obtain ⟨qs, q, h3, rfl, rfl⟩ := joinFields_some h
      obtain ⟨a, rfl, c⟩ := with_sound G H P t _ _ _ cl.1 i h1
      obtain ⟨a2, rfl, rfl, c2⟩ := own_sound G H P rest _ _ _ _ cl.2 a h3
      refine ⟨a2, by simp [ownProps, Props.append], by simp [ownReq], fun r2 g => ?_⟩
      simp only [KnownOwn]
      exact ⟨known_grows (fun k x => g k (own_rel G _ _ _ _ _ h3 k x)) t c, c2 r2 g⟩
    · cases h
  | .embed _ _ _ rest, r, ps, req, r', cl, i, h => by
    simp only [CleanFields] at cl
    have := own_sound G H P rest r ps req r' cl.2.2 i (by simpa only [addOwn] using h)
    simpa only [ownProps, ownReq, KnownOwn] using this

theorem emb_sound {env v} (G : Rel v Grows) (H : Sound env v) (P : Key → Prop) : ∀ fs own r ps req r', NoClash own fs →
    CleanFields fs → Inv env P r → addEmbedded env v fs own r = some (ps, req, r') →
    Inv env P r' ∧ ps = embProps env fs own ∧ req = embReq env fs own ∧
      (KnownOwn env r' fs → KnownFields env r' fs)
  | .nil, own, r, ps, req, r', nc, cl, i, h => by
    simp [addEmbedded] at h; obtain ⟨rfl, rfl, rfl⟩ := h
    exact ⟨i, by simp [embProps], by simp [embReq], by simp [KnownFields]⟩
  | .cons f tag opt t rest, own, r, ps, req, r', nc, cl, i, h => by
    simp only [CleanFields] at cl
    simp only [NoClash] at nc
    obtain ⟨a, b, c, d⟩ := emb_sound G H P rest own r ps req r' nc cl.2 i (by simpa only [addEmbedded] using h)
    refine ⟨a, by simpa only [embProps] using b, by simpa only [embReq] using c, fun k => ?_⟩
    simp only [KnownOwn] at k
    simp only [KnownFields]; exact ⟨k.1, d k.2⟩
  | .embed n tag inner rest, own, r, ps, req, r', nc, cl, i, h => by
    simp only [CleanFields] at cl
    simp only [NoClash] at nc
    simp only [addEmbedded, if_neg nc.1] at h
    split at h
    · rename_i ps1 req1 r1 h1; split at h
      · rename_i ps2 req2 r2 h2
        obtain ⟨qs, q, h3, rfl, rfl⟩ := joinFields_some h2
        obtain ⟨qs', q', h4, rfl, rfl⟩ := joinFields_some h
        obtain ⟨a, rfl, rfl, c⟩ := own_sound G H P inner _ _ _ _ cl.2.1 i h1
        obtain ⟨a2, rfl, rfl, c2⟩ := emb_sound G H P inner _ _ _ _ _ cl.1 cl.2.1 a h3
        obtain ⟨a3, rfl, rfl, c3⟩ := emb_sound G H P rest _ _ _ _ _ nc.2 cl.2.2 a2 h4
        refine ⟨a3, by simp [embProps, nc.1], by simp [embReq, nc.1], fun k => ?_⟩
        simp only [KnownOwn] at k
        simp only [KnownFields]
        exact ⟨knownFields_grows (emb_rel G _ _ _ _ _ _ h4) _ (c2 (c _ (emb_rel G _ _ _ _ _ _ h3))), c3 k⟩
      · cases h
    · cases h
end

/-! ## The assumptions give the invariants -/

theorem propName_eq (f : Name) (tag : Option Name) : propName f tag = jsonName f tag := by
  rcases tag with _ | (_ | ⟨c, cs⟩) <;> rfl

theorem allFields_embed {d n tag inner rest} (h : tag = none ∨ tag = some []) :
    allFields d (.embed n tag inner rest) = allFields (d + 1) inner ++ allFields d rest := by
  rcases h with rfl | rfl <;> simp [allFields]

theorem own_sub {env} : ∀ {fs d}, PlainFields env fs → ∀ n ∈ ownNames fs, n ∈ (allFields d fs).map Field.name
  | .nil, d, _, n, h => by simp [ownNames] at h
  | .cons f tag opt t rest, d, p, n, h => by
    simp only [PlainFields] at p
    simp only [ownNames, List.mem_cons] at h
    simp only [allFields, List.map_cons, List.mem_cons]
    rcases h with rfl | h
    · exact Or.inl (propName_eq _ _)
    · exact Or.inr (own_sub p.2 n h)
  | .embed m tag inner rest, d, p, n, h => by
    simp only [PlainFields] at p
    simp only [ownNames] at h
    rw [allFields_embed p.1, List.map_append, List.mem_append]
    exact Or.inr (own_sub p.2.2 n h)

theorem noClash_of {own : List Name} : ∀ {fs}, (∀ n ∈ embeddedNames fs, n ∉ own) → NoClash own fs
  | .nil, _ => by simp [NoClash]
  | .cons f tag opt t rest, h => by
    simp only [NoClash]; exact noClash_of (fun n hn => h n (by simpa only [embeddedNames] using hn))
  | .embed m tag inner rest, h => by
    simp only [NoClash]
    exact ⟨h m (by simp [embeddedNames]), noClash_of (fun n hn => h n (by simp [embeddedNames, hn]))⟩

mutual
theorem plain_clean {env} : ∀ t, Plain env t → Clean t
  | .bool, _ => by simp [Clean]
  | .num _, _ => by simp [Clean]
  | .str, _ => by simp [Clean]
  | .any, _ => by simp [Clean]
  | .slice t, h => by simp only [Clean, Plain] at h ⊢; exact plain_clean t h
  | .array _ t, h => by simp only [Clean, Plain] at h ⊢; exact plain_clean t h.2
  | .map k t, h => by simp only [Clean, Plain] at h ⊢; exact ⟨plain_clean k h.1, plain_clean t h.2⟩
  | .pointer t, h => by simp only [Clean, Plain] at h ⊢; exact plain_clean t h
  | .struct fs, h => by
    simp only [Clean, Plain] at h ⊢
    exact ⟨noClash_of fun n hn ho => h.2.2 n hn (own_sub h.1 n ho), plainFields_clean fs 0 h.1 h.2.2⟩
  | .named i, _ => by simp [Clean]

theorem plainFields_clean {env} : ∀ fs d, PlainFields env fs →
    (∀ n ∈ embeddedNames fs, n ∉ (allFields d fs).map Field.name) → CleanFields fs
  | .nil, d, _, _ => by simp [CleanFields]
  | .cons f tag opt t rest, d, p, h => by
    simp only [PlainFields] at p
    simp only [CleanFields]
    exact ⟨plain_clean t p.1, plainFields_clean rest d p.2 fun n hn hm =>
      h n (by simpa only [embeddedNames] using hn) (by simp only [allFields, List.map_cons, List.mem_cons]; exact Or.inr hm)⟩
  | .embed m tag inner rest, d, p, h => by
    simp only [PlainFields] at p
    rw [allFields_embed p.1] at h
    simp only [CleanFields]
    refine ⟨noClash_of fun n hn ho => h n (by simp [embeddedNames, hn]) ?_,
      plainFields_clean inner (d + 1) p.2.1 fun n hn hm => h n (by simp [embeddedNames, hn]) ?_,
      plainFields_clean rest d p.2.2 fun n hn hm => h n (by simp [embeddedNames, hn]) ?_⟩
    · rw [List.map_append, List.mem_append]; exact Or.inl (own_sub p.2.1 n ho)
    · rw [List.map_append, List.mem_append]; exact Or.inl hm
    · rw [List.map_append, List.mem_append]; exact Or.inr hm
end

theorem key_inj {env : Env} (E : PlainEnv env) {c d : Decl} (hc : c ∈ env) (hd : d ∈ env) (h : c.key = d.key) :
    c = d := by
  obtain ⟨i, hi⟩ := List.getElem?_of_mem hc
  obtain ⟨j, hj⟩ := List.getElem?_of_mem hd
  simp only [Decl.key, Prod.mk.injEq] at h
  have := E.keys i j c d hi hj h.2 h.1
  subst this
  rw [hi] at hj; exact Option.some.inj hj

theorem visit_sound {env : Env} (E : PlainEnv env) : ∀ n, Sound env (visit env n)
  | 0 => ⟨fun P r id s r' _ h => by simp [visit] at h⟩
  | n + 1 => ⟨fun P r id s r' i h => by
      simp only [visit] at h
      split at h
      · cases h
      · rename_i d hd
        have hmem : d ∈ env := List.mem_of_getElem? hd
        split at h
        · rename_i hs
          simp at h; obtain ⟨rfl, rfl⟩ := h
          refine ⟨i, by simp [shape, hd], ?_⟩
          simp only [Known, hd, Option.some.injEq]; rintro _ rfl; exact hs
        · split at h
          · cases h
          · rename_i s1 r1 h1
            have i0 : Inv env (fun k => P k ∨ k = d.key) (r.set d.key .any) := by
              intro e he s2 h2
              by_cases ek : e.key = d.key
              · exact Or.inl (Or.inr ek)
              · rw [set_other _ _ ek] at h2
                rcases i e he s2 h2 with h | ⟨h, k⟩
                · exact Or.inl (Or.inl h)
                · exact Or.inr ⟨h, known_grows (grows_set _ _ _) _ k⟩
            obtain ⟨i1, rfl, k1⟩ := with_sound (visit_grows env n) (visit_sound E n) _ _ _ _ _
              (plain_clean _ (E.bodies d hmem)) i0 h1
            have np : isPointer d.body = false := by
              have := (E.underlying d hmem).1
              cases hb : d.body <;> simp_all [isPointer]
            simp [np] at h; obtain ⟨rfl, rfl⟩ := h
            refine ⟨?_, by simp [shape, hd], ?_⟩
            · intro e he s2 h2
              by_cases ek : e.key = d.key
              · have := key_inj E he hmem ek
                subst this
                rw [set_self] at h2; cases h2
                exact Or.inr ⟨rfl, known_grows (grows_set _ _ _) _ k1⟩
              · rw [set_other _ _ ek] at h2
                rcases i1 e he s2 h2 with (h | h) | ⟨h, k⟩
                · exact Or.inl h
                · exact absurd h ek
                · exact Or.inr ⟨h, known_grows (grows_set _ _ _) _ k⟩
            · simp only [Known, hd, Option.some.injEq]; rintro _ rfl; simp [set_self]⟩

/-- The entries are those of the declarations. -/
def Complete (env : Env) (r : Reg) : Prop :=
  ∀ d ∈ env, ∀ s, r d.key = some s → s = shape env d.body ∧ Known env r d.body

theorem document_sound {env : Env} (E : PlainEnv env) {n} : ∀ {ts r ss r'}, (∀ t ∈ ts, Plain env t) → Complete env r →
    document env n r ts = some (ss, r') → Complete env r' ∧ Grows r r' ∧ ss = ts.map (shape env) ∧
      ∀ t ∈ ts, Known env r' t
  | [], r, ss, r', _, c, h => by
    simp [document] at h; obtain ⟨rfl, rfl⟩ := h; exact ⟨c, fun _ h => h, rfl, by simp⟩
  | t :: ts, r, ss, r', hp, c, h => by
    simp only [document, schemaFor] at h
    split at h
    · rename_i s1 r1 h1
      split at h
      · rename_i ss2 r2 h2
        simp at h; obtain ⟨rfl, rfl⟩ := h
        obtain ⟨i1, rfl, k1⟩ := with_sound (visit_grows env n) (visit_sound E n) (fun _ => False) _ _ _ _
          (plain_clean _ (hp t (by simp))) (fun d hd s hs => Or.inr (c d hd s hs)) h1
        have c1 : Complete env r1 := fun d hd s hs => (i1 d hd s hs).resolve_left id
        obtain ⟨c2, g2, rfl, k2⟩ := document_sound E (fun t ht => hp t (by simp [ht])) c1 h2
        refine ⟨c2, fun k x => g2 k (with_rel (visit_grows env n) _ _ _ _ h1 k x), rfl, ?_⟩
        intro u hu
        rcases List.mem_cons.1 hu with rfl | hu
        · exact known_grows g2 _ k1
        · exact k2 u hu
      · cases h
    · cases h

theorem complete_noSchemas (env : Env) : Complete env noSchemas := by
  intro d _ s h; simp [noSchemas] at h

/-! ## Properties -/

/-- The assignments as a list. -/
def plist : Props → List (Name × Schema)
  | .nil => []
  | .cons n s rest => (n, s) :: plist rest

theorem plist_append : ∀ p q, plist (p.append q) = plist p ++ plist q
  | .nil, q => by simp [Props.append, plist]
  | .cons n s rest, q => by simp [Props.append, plist, plist_append rest q]

theorem find_mem : ∀ {p : Props} {n s}, p.find n = some s → (n, s) ∈ plist p
  | .nil, n, s, h => by simp [Props.find] at h
  | .cons m s' rest, n, s, h => by
    simp only [Props.find] at h
    split at h
    · rename_i h1; cases h; simp [plist, find_mem h1]
    · split at h
      · rename_i e; cases h; simp [plist, e]
      · cases h

theorem mem_find : ∀ {p : Props} {n s}, (n, s) ∈ plist p → ∃ s', p.find n = some s'
  | .nil, n, s, h => by simp [plist] at h
  | .cons m s' rest, n, s, h => by
    simp only [Props.find]
    simp only [plist, List.mem_cons, Prod.mk.injEq] at h
    cases hr : rest.find n with
    | some x => simp
    | none =>
      rcases h with ⟨rfl, rfl⟩ | h
      · simp
      · obtain ⟨x, hx⟩ := mem_find h; rw [hr] at hx; cases hx

/-- The fields of the struct itself and those embedded, as assignments. -/
theorem plist_own_emb {env} : ∀ {fs d own}, PlainFields env fs → NoClash own fs → CleanFields fs → ∀ n s,
    ((n, s) ∈ plist (ownProps env fs) ∨ (n, s) ∈ plist (embProps env fs own)) ↔
      ∃ f ∈ allFields d fs, f.name = n ∧ shape env f.ty = s
  | .nil, d, own, _, _, _, n, s => by simp [ownProps, embProps, plist, allFields]
  | .cons f tag opt t rest, d, own, p, nc, cl, n, s => by
    simp only [PlainFields] at p
    simp only [NoClash] at nc
    simp only [CleanFields] at cl
    have := plist_own_emb (d := d) p.2 nc cl.2 n s
    simp only [ownProps, embProps, plist, allFields, List.mem_cons, exists_eq_or_imp, or_assoc, this, Prod.mk.injEq,
      propName_eq, @eq_comm _ n, @eq_comm _ s]
  | .embed m tag inner rest, d, own, p, nc, cl, n, s => by
    simp only [PlainFields] at p
    simp only [NoClash] at nc
    simp only [CleanFields] at cl
    have h1 := plist_own_emb (d := d) p.2.2 nc.2 cl.2.2 n s
    have h2 := plist_own_emb (d := d + 1) p.2.1 cl.1 cl.2.1 n s
    rw [allFields_embed p.1]
    simp only [ownProps, embProps, if_neg nc.1, plist_append, List.mem_append, or_and_right, exists_or, ← h1, ← h2]
    tauto

/-- The required properties. -/
theorem req_own_emb {env} : ∀ {fs d own}, PlainFields env fs → NoClash own fs → CleanFields fs → ∀ n,
    (n ∈ ownReq env fs ∨ n ∈ embReq env fs own) ↔
      ∃ f ∈ allFields d fs, f.name = n ∧ isRequired env f.opt f.ty = true
  | .nil, d, own, _, _, _, n => by simp [ownReq, embReq, allFields]
  | .cons f tag opt t rest, d, own, p, nc, cl, n => by
    simp only [PlainFields] at p
    simp only [NoClash] at nc
    simp only [CleanFields] at cl
    have := req_own_emb (d := d) p.2 nc cl.2 n
    simp only [ownReq, embReq, allFields, List.mem_cons, exists_eq_or_imp, List.mem_append, or_assoc, this,
      propName_eq, @eq_comm _ n]
    by_cases hr : isRequired env opt t = true <;> simp [hr, @eq_comm _ n]
  | .embed m tag inner rest, d, own, p, nc, cl, n => by
    simp only [PlainFields] at p
    simp only [NoClash] at nc
    simp only [CleanFields] at cl
    have h1 := req_own_emb (d := d) p.2.2 nc.2 cl.2.2 n
    have h2 := req_own_emb (d := d + 1) p.2.1 cl.1 cl.2.1 n
    rw [allFields_embed p.1]
    simp only [ownReq, embReq, if_neg nc.1, List.mem_append, or_and_right, exists_or, ← h1, ← h2]
    tauto

theorem nodup_name {l : List Field} (h : (l.map Field.name).Nodup) {f g} (hf : f ∈ l) (hg : g ∈ l)
    (e : f.name = g.name) : f = g := by
  induction l with
  | nil => simp at hf
  | cons a l ih =>
    simp only [List.map_cons, List.nodup_cons, List.mem_map, not_exists, not_and] at h
    rcases List.mem_cons.1 hf with rfl | hf'
    · rcases List.mem_cons.1 hg with rfl | hg'
      · rfl
      · exact absurd e.symm (h.1 _ hg')
    · rcases List.mem_cons.1 hg with rfl | hg'
      · exact absurd e (h.1 _ hf')
      · exact ih h.2 hf' hg'

theorem fieldsOf_plain {fs} (h : ((allFields 0 fs).map Field.name).Nodup) : fieldsOf fs = allFields 0 fs := by
  unfold fieldsOf
  rw [List.filter_eq_self]
  intro f hf
  generalize allFields 0 fs = l at h hf
  have key : (l.filter fun g => decide (g.name = f.name ∧ g.depth ≤ f.depth)) = [f] := by
    induction l with
    | nil => simp at hf
    | cons a l ih =>
      simp only [List.map_cons, List.nodup_cons, List.mem_map, not_exists, not_and] at h
      rcases List.mem_cons.1 hf with rfl | hf
      · have : (l.filter fun g => decide (g.name = f.name ∧ g.depth ≤ f.depth)) = [] := by
          rw [List.filter_eq_nil_iff]; intro g hg; simp; intro e; exact absurd e (h.1 g hg)
        rw [List.filter_cons, this]; simp
      · have : ¬ (a.name = f.name ∧ a.depth ≤ f.depth) := fun e => h.1 f hf e.1.symm
        rw [List.filter_cons, ih h.2 hf]; simp [this]
  simp only [key, List.length_singleton, decide_true]

/-- The schema of a struct with different field names. -/
theorem struct_find {env fs} (h : Plain env (.struct fs)) (n s) :
    ((ownProps env fs).append (embProps env fs (ownNames fs))).find n = some s ↔
      ∃ f ∈ fieldsOf fs, f.name = n ∧ shape env f.ty = s := by
  have cl := plain_clean _ h
  simp only [Plain] at h
  simp only [Clean] at cl
  rw [fieldsOf_plain h.2.1]
  have key := plist_own_emb (d := 0) h.1 cl.1 cl.2
  constructor
  · intro hf
    have := find_mem hf
    rw [plist_append, List.mem_append] at this
    exact (key n s).1 this
  · intro hf
    have h1 := (key n s).2 hf
    rw [← List.mem_append, ← plist_append] at h1
    obtain ⟨s', hs'⟩ := mem_find h1
    have h2 := find_mem hs'
    rw [plist_append, List.mem_append] at h2
    obtain ⟨g, hg, e1, rfl⟩ := (key n s').1 h2
    obtain ⟨f, hf, e2, rfl⟩ := hf
    rw [nodup_name h.2.1 hf hg (e2.trans e1.symm)]; exact hs'

theorem struct_req {env fs} (h : Plain env (.struct fs)) (n) :
    n ∈ ownReq env fs ++ embReq env fs (ownNames fs) ↔
      ∃ f ∈ fieldsOf fs, f.name = n ∧ isRequired env f.opt f.ty = true := by
  have cl := plain_clean _ h
  simp only [Plain] at h
  simp only [Clean] at cl
  rw [fieldsOf_plain h.2.1, List.mem_append]
  exact req_own_emb h.1 cl.1 cl.2 n

theorem optional_iff {env : Env} (E : PlainEnv env) (t : Ty) : boolOrPointer env t = true ↔ Optional env t := by
  constructor
  · intro h
    cases t with
    | named id =>
      simp only [boolOrPointer] at h
      split at h
      · rename_i d hd
        split at h
        · rename_i hb; exact .named id d hd (hb ▸ .bool)
        · rename_i t hb; exact .named id d hd (hb ▸ .pointer t)
        · cases h
      · cases h
    | bool => exact .bool
    | pointer t => exact .pointer t
    | _ => simp [boolOrPointer] at h
  · intro h
    cases h with
    | bool => rfl
    | pointer t => rfl
    | named id d hd hb =>
      simp only [boolOrPointer, hd]
      have := (E.underlying d (List.mem_of_getElem? hd)).2
      cases hb' : d.body with
      | bool => rfl
      | pointer t => rfl
      | named i => exact absurd hb' (this i)
      | _ => rw [hb'] at hb; cases hb

theorem required_iff {env : Env} (E : PlainEnv env) (opt : Bool) (t : Ty) :
    isRequired env opt t = true ↔ opt = false ∧ ¬ Optional env t := by
  rw [← optional_iff E]; simp [isRequired]

mutual
theorem field_plain {env} : ∀ fs d, PlainFields env fs → ∀ f ∈ allFields d fs, Plain env f.ty
  | .nil, d, _, f, h => by simp [allFields] at h
  | .cons _ _ _ t rest, d, p, f, h => by
    simp only [PlainFields] at p
    simp only [allFields, List.mem_cons] at h
    rcases h with rfl | h
    · exact p.1
    · exact field_plain rest d p.2 f h
  | .embed m tag inner rest, d, p, f, h => by
    simp only [PlainFields] at p
    rw [allFields_embed p.1, List.mem_append] at h
    rcases h with h | h
    · exact field_plain inner _ p.2.1 f h
    · exact field_plain rest d p.2.2 f h
end

theorem field_known {env r} : ∀ fs d, PlainFields env fs → KnownFields env r fs → ∀ f ∈ allFields d fs, Known env r f.ty
  | .nil, d, _, _, f, h => by simp [allFields] at h
  | .cons _ _ _ t rest, d, p, k, f, h => by
    simp only [PlainFields] at p
    simp only [KnownFields] at k
    simp only [allFields, List.mem_cons] at h
    rcases h with rfl | h
    · exact k.1
    · exact field_known rest d p.2 k.2 f h
  | .embed m tag inner rest, d, p, k, f, h => by
    simp only [PlainFields] at p
    simp only [KnownFields] at k
    rw [allFields_embed p.1, List.mem_append] at h
    rcases h with h | h
    · exact field_known inner _ p.2.1 k.1 f h
    · exact field_known rest d p.2.2 k.2 f h

theorem fieldsOf_sub {fs f} (h : f ∈ fieldsOf fs) : f ∈ allFields 0 fs := (List.mem_filter.1 h).1

/-! ## Schemas mean their types -/

theorem valid_of_conforms {env : Env} (E : PlainEnv env) {r} (C : Complete env r) {t j} (h : Conforms env t j) :
    Plain env t → Known env r t → Valid r (shape env t) j := by
  induction h with
  | any j => intro _ _; simp only [shape]; exact .any j
  | bool b => intro _ _; simp only [shape]; exact .bool b
  | int k i hp =>
    intro _ _; simp only [shape]
    cases k <;> simp only [numSchema, Promised, InRange] at hp ⊢ <;>
      first
      | exact .numberInt i
      | (refine .int _ _ _ ?_ ?_ <;> intro m hm <;> cases hm <;> omega)
  | frac k n hf =>
    intro _ _; simp only [shape]
    cases k <;> simp [isFloat] at hf <;> exact .numberFrac n
  | str s => intro _ _; simp only [shape]; exact .str s
  | slice t js _ ih =>
    intro p k; simp only [shape, Plain, Known] at *
    exact .arr _ _ _ (Or.inl rfl) fun j hj => ih j hj p k
  | array n t js hl _ ih =>
    intro p k; simp only [shape, Plain, Known] at *
    exact .arr _ _ _ (Or.inr hl) fun j hj => ih j hj p.2 k
  | map key t kvs _ _ ih1 ih2 =>
    intro p k; simp only [shape, Plain, Known] at *
    exact .map _ _ _ (fun kv hkv => ih1 kv hkv p.1 k.1) fun kv hkv => ih2 kv hkv p.2 k.2
  | pointer t j _ ih => intro p k; simp only [shape, Plain, Known] at *; exact ih p k
  | struct fs kvs _ hr ih =>
    intro p k; simp only [shape]
    have p' := p; simp only [Plain] at p'
    simp only [Known] at k
    refine .obj _ _ _ ?_ ?_
    · intro kv hkv s hs
      obtain ⟨f, hf, e, rfl⟩ := (struct_find p _ _).1 hs
      exact ih kv hkv f hf e (field_plain fs 0 p'.1 f (fieldsOf_sub hf)) (field_known fs 0 p'.1 k f (fieldsOf_sub hf))
    · intro n hn
      obtain ⟨f, hf, rfl, h⟩ := (struct_req p n).1 hn
      obtain ⟨h1, h2⟩ := (required_iff E _ _).1 h
      exact hr f hf h1 h2
  | named id d j hd _ ih =>
    intro p k
    have hmem := List.mem_of_getElem? hd
    simp only [Known] at k
    obtain ⟨s, hs⟩ := Option.isSome_iff_exists.1 (k d hd)
    obtain ⟨rfl, k'⟩ := C d hmem s hs
    simp only [shape, hd]
    exact .ref _ _ _ hs (ih (E.bodies d hmem) k')

/-- The type without pointers in front. -/
def bare : Ty → Ty
  | .pointer t => bare t
  | t => t

theorem bare_ne : ∀ t u, bare t ≠ .pointer u
  | .pointer t, u => by simp only [bare]; exact bare_ne t u
  | .bool, u | .num _, u | .str, u | .any, u | .slice _, u | .array _ _, u | .map _ _, u | .struct _, u | .named _, u => by
    simp [bare]

theorem bare_shape {env} : ∀ t, shape env (bare t) = shape env t
  | .pointer t => by simp only [bare, shape]; exact bare_shape t
  | .bool | .num _ | .str | .any | .slice _ | .array _ _ | .map _ _ | .struct _ | .named _ => by simp only [bare]

theorem bare_plain {env} : ∀ t, Plain env t → Plain env (bare t)
  | .pointer t, h => by simp only [bare, Plain] at *; exact bare_plain t h
  | .bool, h | .num _, h | .str, h | .any, h | .slice _, h | .array _ _, h | .map _ _, h | .struct _, h | .named _, h => by
    simpa only [bare] using h

theorem bare_known {env r} : ∀ t, Known env r t → Known env r (bare t)
  | .pointer t, h => by simp only [bare, Known] at *; exact bare_known t h
  | .bool, h | .num _, h | .str, h | .any, h | .slice _, h | .array _ _, h | .map _ _, h | .struct _, h | .named _, h => by
    simpa only [bare] using h

theorem bare_conforms {env j} : ∀ t, Conforms env (bare t) j → Conforms env t j
  | .pointer t, h => .pointer t j (bare_conforms t (by simpa only [bare] using h))
  | .bool, h | .num _, h | .str, h | .any, h | .slice _, h | .array _ _, h | .map _ _, h | .struct _, h | .named _, h => by
    simpa only [bare] using h

theorem conforms_of_valid {env : Env} (E : PlainEnv env) {r} (C : Complete env r) {s j} (h : Valid r s j) :
    ∀ t, shape env t = s → Plain env t → Known env r t → Conforms env t j := by
  induction h with
  | any j =>
    intro t e p k
    refine bare_conforms t ?_
    rw [← bare_shape] at e; replace p := bare_plain t p; have nb := bare_ne t
    generalize bare t = u at *
    cases u <;> simp only [shape] at e
    case any => exact .any j
    case num k => cases k <;> cases e
    case named id =>
      simp only [Plain] at p
      rw [List.getElem?_eq_getElem p] at e; cases e
    case pointer t => exact absurd rfl (nb t)
    all_goals cases e
  | ref k s j hk _ ih =>
    intro t e p kn
    refine bare_conforms t ?_
    rw [← bare_shape] at e; replace p := bare_plain t p; have nb := bare_ne t; replace kn := bare_known t kn
    generalize bare t = u at *
    cases u <;> simp only [shape] at e
    case num k => cases k <;> cases e
    case named id =>
      simp only [Plain] at p
      rw [List.getElem?_eq_getElem p] at e; cases e
      have hmem : env[id] ∈ env := List.getElem_mem p
      obtain ⟨rfl, k'⟩ := C _ hmem s hk
      exact .named id _ j (List.getElem?_eq_getElem p) (ih _ rfl (E.bodies _ hmem) k')
    case pointer t => exact absurd rfl (nb t)
    all_goals cases e
  | bool b =>
    intro t e p kn
    refine bare_conforms t ?_
    rw [← bare_shape] at e; replace p := bare_plain t p; have nb := bare_ne t
    generalize bare t = u at *
    cases u <;> simp only [shape] at e
    case bool => exact .bool b
    case num k => cases k <;> cases e
    case named id =>
      simp only [Plain] at p
      rw [List.getElem?_eq_getElem p] at e; cases e
    case pointer t => exact absurd rfl (nb t)
    all_goals cases e
  | int min max i hmin hmax =>
    intro t e p kn
    refine bare_conforms t ?_
    rw [← bare_shape] at e; replace p := bare_plain t p; have nb := bare_ne t
    generalize bare t = u at *
    cases u <;> simp only [shape] at e
    case num k =>
      refine .int k i ?_
      cases k <;> cases e <;> simp only [Promised, InRange] <;>
        first
        | trivial
        | (have a := hmin _ rfl; exact a)
        | (have a := hmin _ rfl; have b := hmax _ rfl; omega)
    case named id =>
      simp only [Plain] at p
      rw [List.getElem?_eq_getElem p] at e; cases e
    case pointer t => exact absurd rfl (nb t)
    all_goals cases e
  | numberInt i =>
    intro t e p kn
    refine bare_conforms t ?_
    rw [← bare_shape] at e; replace p := bare_plain t p; have nb := bare_ne t
    generalize bare t = u at *
    cases u <;> simp only [shape] at e
    case num k => refine .int k i ?_; cases k <;> cases e <;> trivial
    case named id =>
      simp only [Plain] at p
      rw [List.getElem?_eq_getElem p] at e; cases e
    case pointer t => exact absurd rfl (nb t)
    all_goals cases e
  | numberFrac i =>
    intro t e p kn
    refine bare_conforms t ?_
    rw [← bare_shape] at e; replace p := bare_plain t p; have nb := bare_ne t
    generalize bare t = u at *
    cases u <;> simp only [shape] at e
    case num k => refine .frac k i ?_; cases k <;> cases e <;> rfl
    case named id =>
      simp only [Plain] at p
      rw [List.getElem?_eq_getElem p] at e; cases e
    case pointer t => exact absurd rfl (nb t)
    all_goals cases e
  | str i =>
    intro t e p kn
    refine bare_conforms t ?_
    rw [← bare_shape] at e; replace p := bare_plain t p; have nb := bare_ne t
    generalize bare t = u at *
    cases u <;> simp only [shape] at e
    case num k => cases k <;> cases e
    case str => exact .str i
    case named id =>
      simp only [Plain] at p
      rw [List.getElem?_eq_getElem p] at e; cases e
    case pointer t => exact absurd rfl (nb t)
    all_goals cases e
  | arr items n js hn _ ih =>
    intro t e p kn
    refine bare_conforms t ?_
    rw [← bare_shape] at e; replace p := bare_plain t p; have nb := bare_ne t; replace kn := bare_known t kn
    generalize bare t = u at *
    cases u <;> simp only [shape] at e
    case num k => cases k <;> cases e
    case slice t =>
      cases e; simp only [Plain, Known] at p kn
      exact .slice t js fun j hj => ih j hj t rfl p kn
    case array m t =>
      cases e; simp only [Plain, Known] at p kn
      exact .array _ t js (by omega) fun j hj => ih j hj t rfl p.2 kn
    case named id =>
      simp only [Plain] at p
      rw [List.getElem?_eq_getElem p] at e; cases e
    case pointer t => exact absurd rfl (nb t)
    all_goals cases e
  | map names values kvs _ _ ih1 ih2 =>
    intro t e p kn
    refine bare_conforms t ?_
    rw [← bare_shape] at e; replace p := bare_plain t p; have nb := bare_ne t; replace kn := bare_known t kn
    generalize bare t = u at *
    cases u <;> simp only [shape] at e
    case num k => cases k <;> cases e
    case map key t =>
      cases e; simp only [Plain, Known] at p kn
      exact .map key t kvs (fun kv h => ih1 kv h key rfl p.1 kn.1) fun kv h => ih2 kv h t rfl p.2 kn.2
    case named id =>
      simp only [Plain] at p
      rw [List.getElem?_eq_getElem p] at e; cases e
    case pointer t => exact absurd rfl (nb t)
    all_goals cases e
  | obj ps required kvs _ hreq ih =>
    intro t e p kn
    refine bare_conforms t ?_
    rw [← bare_shape] at e; replace p := bare_plain t p; have nb := bare_ne t; replace kn := bare_known t kn
    generalize bare t = u at *
    cases u <;> simp only [shape] at e
    case num k => cases k <;> cases e
    case struct fs =>
      cases e
      have p' := p
      simp only [Plain, Known] at p' kn
      refine .struct fs kvs ?_ ?_
      · intro kv hkv f hf e
        exact ih kv hkv _ ((struct_find p _ _).2 ⟨f, hf, e, rfl⟩) f.ty rfl
          (field_plain fs 0 p'.1 f (fieldsOf_sub hf)) (field_known fs 0 p'.1 kn f (fieldsOf_sub hf))
      · intro f hf h1 h2
        exact hreq f.name ((struct_req p _).2 ⟨f, hf, rfl, (required_iff E _ _).2 ⟨h1, h2⟩⟩)
    case named id =>
      simp only [Plain] at p
      rw [List.getElem?_eq_getElem p] at e; cases e
    case pointer t => exact absurd rfl (nb t)
    all_goals cases e

/-! ## What is encoded -/

theorem promised_of_range {k i} (h : InRange k i) : Promised k i := by
  cases k <;> simp only [Promised, InRange] at * <;> omega

theorem field_textual {env} : ∀ fs d, PlainFields env fs → TextualFields env fs → ∀ f ∈ allFields d fs, Textual env f.ty
  | .nil, d, _, _, f, h => by simp [allFields] at h
  | .cons _ _ _ t rest, d, p, k, f, h => by
    simp only [PlainFields] at p
    simp only [TextualFields] at k
    simp only [allFields, List.mem_cons] at h
    rcases h with rfl | h
    · exact k.1
    · exact field_textual rest d p.2 k.2 f h
  | .embed m tag inner rest, d, p, k, f, h => by
    simp only [PlainFields] at p
    simp only [TextualFields] at k
    rw [allFields_embed p.1, List.mem_append] at h
    rcases h with h | h
    · exact field_textual inner _ p.2.1 k.1 f h
    · exact field_textual rest d p.2.2 k.2 f h

theorem conforms_of_json {env : Env} (E : PlainEnv env) (T : ∀ d ∈ env, Textual env d.body) {t j}
    (h : JsonOf env false t j) : Plain env t → Textual env t → Conforms env t j := by
  induction h with
  | any j => intros; exact .any j
  | bool b => intros; exact .bool b
  | int k i h => intros; exact .int k i (promised_of_range h)
  | frac k n h => intros; exact .frac k n h
  | str s => intros; exact .str s
  | slice t js _ _ ih => intro p x; simp only [Plain, Textual] at p x; exact .slice t js fun j hj => ih j hj p x.2
  | bytes t s h => intro p x; simp only [Textual] at x; rw [x.1] at h; cases h
  | array n t js hl _ ih =>
    intro p x; simp only [Plain, Textual] at p x; exact .array n t js (by omega) fun j hj => ih j hj p.2 x
  | map key t kvs hk _ ih =>
    intro p x; simp only [Plain, Textual] at p x
    exact .map key t kvs (fun kv h => x.1 _ (hk kv h)) fun kv h => ih kv h p.2 x.2
  | pointer t j _ ih => intro p x; simp only [Plain, Textual] at p x; exact .pointer t j (ih p x)
  | nilSlice t h => cases h
  | nilMap key t h => cases h
  | nilPointer t h => cases h
  | struct fs kvs _ _ hr ih =>
    intro p x; simp only [Plain, Textual] at p x
    exact .struct fs kvs (fun kv hkv f hf e => ih kv hkv f hf e (field_plain fs 0 p.1 f (fieldsOf_sub hf))
      (field_textual fs 0 p.1 x f (fieldsOf_sub hf))) fun f hf ho _ => hr f hf ho
  | named id d j hd _ ih =>
    intro p x
    have := List.mem_of_getElem? hd
    exact .named id d j hd (ih (E.bodies d this) (T d this))

end Verif.Oas
