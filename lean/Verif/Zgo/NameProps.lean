import Verif.Zgo.NameSpec
import Verif.Zgo.LitLemmas

/-!
# zgo names: the property

* C167 — every use of a name refers to the declaration it refers to in Go, and no declaration clashes with
  another one.
-/
namespace Verif.Zgo.Names
open Spec
open Verif.Zgo.Lit (emitDecimal)

theorem decimal_inj {a b : Nat} (h : emitDecimal a = emitDecimal b) : a = b := by
  have h1 := Lit.rune_literal a
  rw [h, Lit.rune_literal b] at h1
  injection h1 with h1
  exact h1.symm

theorem dot_split {a b : Name} {s t : Name} (ha : '.' ∉ a) (hb : '.' ∉ b) (h : a ++ '.' :: s = b ++ '.' :: t) :
    a = b ∧ s = t := by
  induction a generalizing b with
  | nil =>
    cases b with
    | nil => exact ⟨rfl, by simpa using h⟩
    | cons y ys =>
      simp only [List.nil_append, List.cons_append, List.cons.injEq] at h
      exact absurd (by rw [h.1]; simp) hb
  | cons x xs ih =>
    cases b with
    | nil =>
      simp only [List.nil_append, List.cons_append, List.cons.injEq] at h
      exact absurd (by rw [h.1]; simp) ha
    | cons y ys =>
      simp only [List.cons_append, List.cons.injEq] at h
      obtain ⟨h1, h2⟩ := ih (fun hm => ha (List.mem_cons_of_mem _ hm)) (fun hm => hb (List.mem_cons_of_mem _ hm)) h.2
      exact ⟨by rw [h.1, h1], h2⟩

theorem dot_mem (a s : Name) : '.' ∈ a ++ '.' :: s := by simp

/-- Identifiers determine the Go name and whether and how deep it was counted. -/
theorem shadowed_inj {a b : Name} {i j : Int} (ha : '.' ∉ a) (hb : '.' ∉ b) (h : shadowed a i = shadowed b j) :
    a = b ∧ (0 < i → i = j) ∧ (0 < j → i = j) := by
  unfold shadowed at h
  by_cases hi : i > 0
  · by_cases hj : j > 0
    · rw [if_pos hi, if_pos hj] at h
      obtain ⟨h1, h2⟩ := dot_split ha hb h
      have := decimal_inj h2
      exact ⟨h1, fun _ => by omega, fun _ => by omega⟩
    · rw [if_pos hi, if_neg hj] at h
      exact absurd (h ▸ dot_mem _ _) hb
  · by_cases hj : j > 0
    · rw [if_neg hi, if_pos hj] at h
      exact absurd (h ▸ dot_mem _ _) ha
    · rw [if_neg hi, if_neg hj] at h
      exact ⟨h, fun h => by omega, fun h => by omega⟩

theorem shadow_ge (n : Name) (c : List Scope) : -1 ≤ shadow n c := by
  induction c with
  | nil => simp [shadow]
  | cons s up ih =>
    rw [shadow]
    split <;> omega

theorem shadow_drop (n : Name) (c : List Scope) (k : Nat) : shadow n (c.drop k) ≤ shadow n c := by
  induction k generalizing c with
  | zero => simp
  | succ k ih =>
    cases c with
    | nil => simp
    | cons s up =>
      have := ih up
      simp only [List.drop_succ_cons]
      rw [shadow]
      split <;> omega

theorem depth_step {all : List Scope} {i : Nat} {d : Name × Kind} (h : At all i d) :
    depth all i d.1 = shadow d.1 (all.drop (i + 1)) + 1 := by
  obtain ⟨s, hs, hd⟩ := h
  have hlt := (List.getElem?_eq_some_iff.1 hs).1
  have hget := (List.getElem?_eq_some_iff.1 hs).2
  unfold depth
  rw [List.drop_eq_getElem_cons hlt, hget, shadow]
  have : declares s d.1 = true := by
    unfold declares
    rw [List.any_eq_true]
    exact ⟨d, hd, by simp⟩
  rw [this]; rfl

theorem depth_nonneg {all : List Scope} {i : Nat} {d : Name × Kind} (h : At all i d) : 0 ≤ depth all i d.1 := by
  rw [depth_step h]
  have := shadow_ge d.1 (all.drop (i + 1))
  omega

theorem depth_lt {all : List Scope} {i j : Nat} {d e : Name × Kind} (hd : At all i d) (he : At all j e)
    (hn : d.1 = e.1) (hij : i < j) : depth all j e.1 < depth all i d.1 := by
  rw [depth_step hd]
  have h1 := shadow_drop e.1 (all.drop (i + 1)) (j - (i + 1))
  rw [List.drop_drop] at h1
  have h2 : i + 1 + (j - (i + 1)) = j := by omega
  rw [h2] at h1
  unfold depth
  rw [hn]
  omega

/-- The kinds of declarations that take their nesting into account. -/
def Counted (k : Kind) : Prop := k = .variable ∨ k = .parameter ∨ k = .constant

theorem declName_cases (n : Name) (k : Kind) (i : Int) :
    (Counted k ∧ declName n k i = shadowed n i) ∨ (¬ Counted k ∧ declName n k i = shadowed n 0) := by
  cases k <;> simp [Counted, declName, shadowed]

/-- Two declarations, `d` further in. -/
theorem clash {locals : List Scope} {file package univ : Scope} (hc : Chain locals file package univ)
    (hrecv : ∀ i d, At locals i d → d.2 = .receiver → depth (scopes locals file package univ) i d.1 = 0)
    (htype : ∀ i d, At locals i d → d.2 = .type → ∀ j e, i < j → j < locals.length + 2 →
      At (scopes locals file package univ) j e → e.1 ≠ d.1)
    {i j : Nat} {d e : Name × Kind} (hij : i < j) (hj : j < locals.length + 2)
    (hd : At (scopes locals file package univ) i d) (he : At (scopes locals file package univ) j e) :
    declName d.1 d.2 (depth (scopes locals file package univ) i d.1) ≠
    declName e.1 e.2 (depth (scopes locals file package univ) j e.1) := by
  have hgo : ∀ {k : Nat} {x : Name × Kind}, k < locals.length + 2 → At (scopes locals file package univ) k x → '.' ∉ x.1 := by
    rintro k x hk ⟨s, hs, hx⟩
    apply hc.goNames s _ x hx
    have : (locals ++ [file, package])[k]? = some s := by
      rw [← hs, scopes]
      have e1 : locals ++ [file, package, univ] = (locals ++ [file, package]) ++ [univ] := by simp
      rw [e1]
      exact (List.getElem?_append_left (by simp; omega)).symm
    exact List.mem_of_getElem? this
  intro h
  have hname : d.1 = e.1 := by
    rcases declName_cases d.1 d.2 (depth (scopes locals file package univ) i d.1) with ⟨_, h1⟩ | ⟨_, h1⟩ <;>
    rcases declName_cases e.1 e.2 (depth (scopes locals file package univ) j e.1) with ⟨_, h2⟩ | ⟨_, h2⟩ <;>
    · rw [h1, h2] at h
      exact (shadowed_inj (hgo (by omega) hd) (hgo hj he) h).1
  have hlt := depth_lt hd he hname hij
  have hnn := depth_nonneg he
  rcases declName_cases d.1 d.2 (depth (scopes locals file package univ) i d.1) with ⟨_, h1⟩ | ⟨hk, _⟩
  · rcases declName_cases e.1 e.2 (depth (scopes locals file package univ) j e.1) with ⟨_, h2⟩ | ⟨_, h2⟩
    · rw [h1, h2] at h
      have := (shadowed_inj (hgo (by omega) hd) (hgo hj he) h).2.1 (by omega)
      omega
    · rw [h1, h2] at h
      have := (shadowed_inj (hgo (by omega) hd) (hgo hj he) h).2.1 (by omega)
      omega
  · rcases Nat.lt_or_ge i locals.length with hil | hil
    · have hloc : At locals i d := by
        obtain ⟨s, hs, hx⟩ := hd
        refine ⟨s, ?_, hx⟩
        rw [scopes, List.getElem?_append_left hil] at hs
        exact hs
      have hmem : ∃ s ∈ locals, d ∈ s := by
        obtain ⟨s, hs, hx⟩ := hloc
        exact ⟨s, List.mem_of_getElem? hs, hx⟩
      obtain ⟨s, hs, hx⟩ := hmem
      have hf := hc.functions s hs d hx
      cases hkind : d.2 with
      | receiver => have := hrecv i d hloc hkind; omega
      | type => exact htype i d hloc hkind j e hij hj he hname.symm
      | function => exact hf.1 hkind
      | package => exact hf.2 hkind
      | «variable» => simp [Counted, hkind] at hk
      | parameter => simp [Counted, hkind] at hk
      | constant => simp [Counted, hkind] at hk
    · -- the file's scope against the package's
      have hi : i = locals.length := by omega
      have hj' : j = locals.length + 1 := by omega
      subst hi; subst hj'
      obtain ⟨s, hs, hx⟩ := hd
      obtain ⟨t, ht, hy⟩ := he
      simp [scopes, List.getElem?_append] at hs ht
      subst hs; subst ht
      exact hc.imports d hx e hy hname

/-- C167, the part that holds: in every chain of nested scopes in which no receiver hides a name (not even a
predeclared one) and no local type hides another declaration, every use is written as its declaration is,
and no two declarations, of the same name or not, are written as the same identifier. So Zig accepts the
nesting and every use finds its own declaration. -/
theorem names_resolve_partial (locals : List Scope) (file package univ : Scope) (hc : Chain locals file package univ)
    (hrecv : ∀ i d, At locals i d → d.2 = .receiver → depth (scopes locals file package univ) i d.1 = 0)
    (htype : ∀ i d, At locals i d → d.2 = .type → ∀ j e, i < j → j < locals.length + 2 →
      At (scopes locals file package univ) j e → e.1 ≠ d.1)
    (i j : Nat) (d e : Name × Kind) (hi : i < locals.length + 2) (hj : j < locals.length + 2)
    (hd : At (scopes locals file package univ) i d) (he : At (scopes locals file package univ) j e) :
    useName d.1 d.2 (depth (scopes locals file package univ) i d.1) =
      declName d.1 d.2 (depth (scopes locals file package univ) i d.1) ∧
    (useName d.1 d.2 (depth (scopes locals file package univ) i d.1) =
      declName e.1 e.2 (depth (scopes locals file package univ) j e.1) → i = j ∧ d = e) := by
  have huse : useName d.1 d.2 (depth (scopes locals file package univ) i d.1) =
      declName d.1 d.2 (depth (scopes locals file package univ) i d.1) := by
    cases hk : d.2 <;> simp only [useName, declName]
    -- the receiver
    rcases Nat.lt_or_ge i locals.length with hil | hil
    · have hloc : At locals i d := by
        obtain ⟨s, hs, hx⟩ := hd
        rw [scopes, List.getElem?_append_left hil] at hs
        exact ⟨s, hs, hx⟩
      rw [hrecv i d hloc hk]
      simp [shadowed]
    · exfalso
      have : i = locals.length ∨ i = locals.length + 1 := by omega
      obtain ⟨s, hs, hx⟩ := hd
      rcases this with rfl | rfl
      · simp [scopes, List.getElem?_append] at hs
        subst hs
        have := hc.fileKinds d hx
        rw [hk] at this; cases this
      · simp [scopes, List.getElem?_append] at hs
        subst hs
        exact (hc.packageKinds d hx).2.2 hk
  refine ⟨huse, ?_⟩
  rw [huse]
  intro h
  rcases Nat.lt_trichotomy i j with hlt | heq | hgt
  · exact absurd h (clash hc hrecv htype hlt hj hd he)
  · subst heq
    refine ⟨rfl, ?_⟩
    obtain ⟨s, hs, hx⟩ := hd
    obtain ⟨t, ht, hy⟩ := he
    rw [hs] at ht
    injection ht with ht
    subst ht
    have hsm : s ∈ locals ++ [file, package] := by
      have : (locals ++ [file, package])[i]? = some s := by
        rw [← hs, scopes]
        have e1 : locals ++ [file, package, univ] = (locals ++ [file, package]) ++ [univ] := by simp
        rw [e1]
        exact (List.getElem?_append_left (by simp; omega)).symm
      exact List.mem_of_getElem? this
    apply hc.once s hsm d hx e hy
    have hn1 := hc.goNames s hsm d hx
    have hn2 := hc.goNames s hsm e hy
    rcases declName_cases d.1 d.2 (depth (scopes locals file package univ) i d.1) with ⟨_, h1⟩ | ⟨_, h1⟩ <;>
    rcases declName_cases e.1 e.2 (depth (scopes locals file package univ) i e.1) with ⟨_, h2⟩ | ⟨_, h2⟩ <;>
    · rw [h1, h2] at h
      exact (shadowed_inj hn1 hn2 h).1
  · exact absurd h.symm (clash hc hrecv htype hgt hi he hd)

section Examples
def x : Name := ['x']
def t : Name := ['T']
def len : Name := ['l', 'e', 'n']
/-- A package with a variable `x` and a type `T`, the universe with `len`. -/
def pkg : Scope := [(x, .variable), (t, .type)]
def uni : Scope := [(len, .function)]
/-- A function with a parameter `x`, in it a block with variables `x` and `len`. -/
def nested : List Scope := [[(x, .variable), (len, .variable)], [(x, .parameter)]]
end Examples

theorem nested_chain : Chain nested [] pkg uni where
  goNames := by unfold GoName; decide
  once := by decide
  functions := by decide
  fileKinds := by decide
  packageKinds := by decide
  imports := by decide

/-- `x` in the block, the parameter and the package are `x.2`, `x.1` and `x`; `len` in the block is `len.1`. -/
example : depth (scopes nested [] pkg uni) 0 x = 2 ∧ depth (scopes nested [] pkg uni) 1 x = 1 ∧
    depth (scopes nested [] pkg uni) 3 x = 0 ∧ depth (scopes nested [] pkg uni) 0 len = 1 := by decide

example : (∀ i d, At nested i d → d.2 = .receiver → depth (scopes nested [] pkg uni) i d.1 = 0) ∧
    (∀ i d, At nested i d → d.2 = .type → ∀ j e, i < j → j < nested.length + 2 →
      At (scopes nested [] pkg uni) j e → e.1 ≠ d.1) := by
  have h : ∀ i d, At nested i d → d.2 = .variable ∨ d.2 = .parameter := by
    rintro i d ⟨s, hs, hd⟩
    have hm := List.mem_of_getElem? hs
    simp only [nested, List.mem_cons, List.not_mem_nil, or_false] at hm
    rcases hm with rfl | rfl <;> simp at hd
    · rcases hd with rfl | rfl <;> simp
    · subst hd; simp
  constructor
  · intro i d hd hk; rcases h i d hd with h | h <;> rw [h] at hk <;> cases hk
  · intro i d hd hk; rcases h i d hd with h | h <;> rw [h] at hk <;> cases hk

/-- C167, the full statement. -/
def NamesResolve : Prop :=
  ∀ (locals : List Scope) (file package univ : Scope), Chain locals file package univ →
  ∀ (i j : Nat) (d e : Name × Kind), i < locals.length + 2 → j < locals.length + 2 →
    At (scopes locals file package univ) i d → At (scopes locals file package univ) j e →
    useName d.1 d.2 (depth (scopes locals file package univ) i d.1) =
      declName d.1 d.2 (depth (scopes locals file package univ) i d.1) ∧
    (useName d.1 d.2 (depth (scopes locals file package univ) i d.1) =
      declName e.1 e.2 (depth (scopes locals file package univ) j e.1) → i = j ∧ d = e)

/-- C167 fails: a receiver that has the name of a package-level declaration is declared under its plain name
(which Zig rejects, as it hides that declaration) and used as `x.1`, which is not declared. -/
theorem receiver_fails : ¬ NamesResolve := by
  intro h
  have hc : Chain [[(x, .receiver)]] [] pkg uni :=
    ⟨by unfold GoName; decide, by decide, by decide, by decide, by decide, by decide⟩
  have := (h _ _ _ _ hc 0 0 (x, .receiver) (x, .receiver) (by decide) (by decide)
    ⟨_, rfl, by simp⟩ ⟨_, rfl, by simp⟩).1
  have hd : depth (scopes [[(x, .receiver)]] [] pkg uni) 0 x = 1 := by decide
  simp only [hd, useName, declName, shadowed] at this
  simp [x] at this

/-- C167 fails: a local type that has the name of a package-level type is declared under the same
identifier, and uses of either mean the inner one (or Zig rejects the program). -/
theorem local_type_fails : ∃ i j d e, i ≠ j ∧ i < 3 ∧ j < 3 ∧
    At (scopes [[(t, .type)]] [] pkg uni) i d ∧ At (scopes [[(t, .type)]] [] pkg uni) j e ∧
    Chain [[(t, .type)]] [] pkg uni ∧
    useName d.1 d.2 (depth (scopes [[(t, .type)]] [] pkg uni) i d.1) =
      declName e.1 e.2 (depth (scopes [[(t, .type)]] [] pkg uni) j e.1) :=
  ⟨0, 2, (t, .type), (t, .type), by decide, by decide, by decide, ⟨_, rfl, by simp⟩, ⟨_, rfl, by simp [pkg]⟩,
    ⟨by unfold GoName; decide, by decide, by decide, by decide, by decide, by decide⟩, rfl⟩

/-- C167 fails: the statement at the start of a function mentions each parameter by its plain name, which is
not declared anywhere if the parameter hides a predeclared name only. -/
theorem parameter_mention_fails : Chain [[(len, .parameter)]] [] pkg uni ∧
    ∀ j e, j < 3 → At (scopes [[(len, .parameter)]] [] pkg uni) j e →
      declName e.1 e.2 (depth (scopes [[(len, .parameter)]] [] pkg uni) j e.1) ≠ mentioned len := by
  refine ⟨⟨by unfold GoName; decide, by decide, by decide, by decide, by decide, by decide⟩, ?_⟩
  rintro j e hj ⟨s, hs, he⟩
  have : j = 0 ∨ j = 1 ∨ j = 2 := by omega
  rcases this with rfl | rfl | rfl
  · simp [scopes] at hs; subst hs
    simp at he; subst he
    have hd : depth (scopes [[(len, .parameter)]] [] pkg uni) 0 len = 1 := by decide
    simp only [hd, declName, shadowed, mentioned]
    simp [len]
  · simp [scopes] at hs; subst hs; cases he
  · simp [scopes] at hs; subst hs
    simp [pkg] at he
    have hx : depth (scopes [[(len, .parameter)]] [] pkg uni) 2 x = 0 := by decide
    rcases he with rfl | rfl
    · simp only [hx, declName, shadowed, mentioned]; decide
    · simp only [declName, mentioned]; decide

/-- C167 fails: a name that is a keyword of Zig is written as that keyword, whatever it names, unless it
hides another declaration. -/
theorem keyword_fails : ∀ n ∈ zigKeywords, ∀ kind k, k ≤ 0 → GoName n ∧ declName n kind k = n := by
  intro n hn kind k hk
  refine ⟨by revert n; unfold GoName; decide, ?_⟩
  have : shadowed n k = n := by unfold shadowed; rw [if_neg (by omega)]
  cases kind <;> simp only [declName, this]

end Verif.Zgo.Names
