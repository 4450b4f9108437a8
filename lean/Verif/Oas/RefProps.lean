import Verif.Oas.RefModel
import Verif.Oas.NameProps
/-!
# References in documents resolve (C228)

The specification is that of URI references (RFC 3986) and JSON pointers (RFC 6901).
-/
namespace Verif.Oas.Ref

namespace Spec

/-- The value of a hexadecimal digit. -/
def hex (c : Char) : Option Nat :=
  if '0' ≤ c ∧ c ≤ '9' then some (c.toNat - '0'.toNat)
  else if 'a' ≤ c ∧ c ≤ 'f' then some (c.toNat - 'a'.toNat + 10)
  else if 'A' ≤ c ∧ c ≤ 'F' then some (c.toNat - 'A'.toNat + 10)
  else none

/-- Decodes `%xx` (of ASCII). -/
def percentDecode : Str → Option Str
  | [] => some []
  | '%' :: a :: b :: s =>
    match hex a, hex b, percentDecode s with
    | some x, some y, some t => some (Char.ofNat (16 * x + y) :: t)
    | _, _, _ => none
  | c :: s => if c = '%' then none else (percentDecode s).map (c :: ·)

/-- A reference token: `~1` is a slash, `~0` a tilde. -/
def token : Str → Option Str
  | [] => some []
  | '~' :: '1' :: s => (token s).map ('/' :: ·)
  | '~' :: '0' :: s => (token s).map ('~' :: ·)
  | c :: s => if c = '~' then none else (token s).map (c :: ·)

/-- The member of an object. -/
def member {S : Type} (k : Str) : List (Str × Tree S) → Option (Tree S)
  | [] => none
  | (k', v) :: m => if k' = k then some v else member k m

/-- One step of a pointer. -/
def step {S : Type} (tok : Str) : Tree S → Option (Tree S)
  | .obj m => (token tok).bind fun k => member k m
  | .schema _ => none

/-- Follows a pointer: `cur` is the token so far. -/
def follow {S : Type} (t : Tree S) (cur : Str) : Str → Option (Tree S)
  | [] => step cur t
  | c :: s => if c = '/' then (step cur t).bind fun u => follow u [] s else follow t (cur ++ [c]) s

/-- What a reference within a document designates. -/
def resolve {S : Type} (t : Tree S) : Str → Option (Tree S)
  | '#' :: f =>
    match percentDecode f with
    | some [] => some t
    | some ('/' :: p) => follow t [] p
    | _ => none
  | _ => none

/-- The characters a fragment may have unencoded (RFC 3986, 3.5). -/
def fragmentChar (c : Char) : Bool :=
  ('a' ≤ c && c ≤ 'z') || ('A' ≤ c && c ≤ 'Z') || ('0' ≤ c && c ≤ '9') || "-._~!$&'()*+,;=:@/?".toList.contains c

/-- A fragment: such characters and `%xx`. -/
def isFragment : Str → Bool
  | [] => true
  | '%' :: a :: b :: s => (hex a).isSome && (hex b).isSome && isFragment s
  | c :: s => fragmentChar c && isFragment s

/-- A URI reference to a part of the same document. -/
def isUri : Str → Bool
  | '#' :: f => isFragment f
  | _ => false

end Spec

/-- The registrations of a program, in order. -/
def registered {S : Type} (l : List (Str × Str × S)) : Doc S :=
  l.foldl (fun d e => register d e.1 e.2.1 e.2.2) { components := none }

/-- The schema registered last under a namespace and a name. -/
def LastUnder {S : Type} (l : List (Str × Str × S)) (ns name : Str) (s : S) : Prop :=
  ∃ before after, l = before ++ (ns, name, s) :: after ∧ ∀ e ∈ after, ¬(e.1 = ns ∧ e.2.1 = name)

/-- C228: whatever was registered, a reference that is handed out is a URI and designates the schema that was registered last
under the name. -/
def RefClaim : Prop :=
  ∀ (S : Type) (l : List (Str × Str × S)) (ns name ref : Str), lookup (registered l) ns name = some ref →
    Spec.isUri ref = true ∧ ∃ s, LastUnder l ns name s ∧ Spec.resolve (registered l).json ref = some (.schema s)

/-! ## The registry is a map -/

theorem get_assign {V : Type} (k k' : Str) (v : V) : ∀ m : List (Str × V), get k' (assign k v m) = if k = k' then some v else get k' m
  | [] => by simp only [assign, get]
  | (a, w) :: m => by
    unfold assign
    by_cases h : a = k
    · rw [if_pos h]
      simp only [get]
      by_cases hk : k = k'
      · rw [if_pos hk, if_pos hk]
      · rw [if_neg hk, if_neg hk, if_neg (fun e => hk (h.symm.trans e))]
    · rw [if_neg h]
      simp only [get]
      rw [get_assign k k' v m]
      by_cases ha : a = k'
      · rw [if_pos ha, if_neg (fun e => h (ha.trans e.symm)), if_pos ha]
      · rw [if_neg ha, if_neg ha]

/-- What is found in a document. -/
def find {S : Type} (d : Doc S) (ns name : Str) : Option S :=
  ((d.components.bind (·.schemas)).bind (get ns)).bind (defOf · name)

theorem find_register {S : Type} (d : Doc S) (ns name ns' name' : Str) (s : S) :
    find (register d ns name s) ns' name' = if ns = ns' ∧ name = name' then some s else find d ns' name' := by
  have hm : find d ns' name' = (get ns' ((d.components.getD { schemas := none }).schemas.getD [])).bind (defOf · name') := by
    unfold find
    cases d.components with
    | none => rfl
    | some c =>
      show (c.schemas.bind (get ns')).bind _ = (get ns' (c.schemas.getD [])).bind _
      cases c.schemas with
      | none => rfl
      | some m => rfl
  rw [hm]
  show ((some (assign ns _ _)).bind (get ns')).bind (defOf · name') = _
  simp only [Option.bind_some]
  rw [get_assign]
  by_cases h : ns = ns'
  · subst h
    rw [if_pos rfl]
    show get name' (assign name s _) = _
    rw [get_assign]
    by_cases hn : name = name'
    · rw [if_pos hn, if_pos ⟨rfl, hn⟩]
    · rw [if_neg hn, if_neg (fun e => hn e.2)]
      cases get ns ((d.components.getD { schemas := none }).schemas.getD []) with
      | none => rfl
      | some p =>
        show get name' (p.defs.getD []) = defOf p name'
        unfold defOf
        cases p.defs <;> rfl
  · rw [if_neg h, if_neg (fun e => h e.1)]

theorem lookup_find {S : Type} (d : Doc S) (ns name : Str) : lookup d ns name = (find d ns name).map fun _ => refText ns name := by
  unfold lookup find
  cases d.components with
  | none => rfl
  | some c =>
    cases hm : c.schemas with
    | none => simp [hm, get]
    | some m =>
      simp only [hm, Option.getD_some, Option.bind_some]
      cases get ns m with
      | none => rfl
      | some p =>
        simp only [Option.bind_some]
        cases defOf p name <;> rfl

theorem find_foldl {S : Type} (ns name : Str) : ∀ (l : List (Str × Str × S)) (d : Doc S) (s : S),
    find (l.foldl (fun d e => register d e.1 e.2.1 e.2.2) d) ns name = some s ↔
      LastUnder l ns name s ∨ (find d ns name = some s ∧ ∀ e ∈ l, ¬(e.1 = ns ∧ e.2.1 = name))
  | [], d, s => by
    constructor
    · intro h; exact .inr ⟨h, by simp⟩
    · rintro (⟨b, a, h, _⟩ | h)
      · simp at h
      · exact h.1
  | (n, m, v) :: l, d, s => by
    rw [List.foldl_cons, find_foldl ns name l, find_register]
    constructor
    · rintro (⟨b, a, rfl, h⟩ | ⟨h, hl⟩)
      · exact .inl ⟨(n, m, v) :: b, a, rfl, h⟩
      · split at h
        · rename_i hh
          obtain ⟨rfl, rfl⟩ := hh
          cases h
          exact .inl ⟨[], l, rfl, hl⟩
        · rename_i hh
          refine .inr ⟨h, ?_⟩
          intro e he
          rcases List.mem_cons.mp he with rfl | he
          · exact hh
          · exact hl e he
    · rintro (⟨b, a, hb, h⟩ | ⟨h, hl⟩)
      · cases b with
        | nil =>
          simp only [List.nil_append, List.cons.injEq, Prod.mk.injEq] at hb
          obtain ⟨⟨rfl, rfl, rfl⟩, rfl⟩ := hb
          exact .inr ⟨by simp, h⟩
        | cons x b =>
          simp only [List.cons_append, List.cons.injEq] at hb
          exact .inl ⟨b, a, hb.2, h⟩
      · refine .inr ⟨?_, fun e he => hl e (List.mem_cons_of_mem _ he)⟩
        rw [if_neg (hl (n, m, v) List.mem_cons_self)]
        exact h

/-! ## Pointers -/

theorem percentDecode_plain : ∀ s : Str, '%' ∉ s → Spec.percentDecode s = some s
  | [], _ => rfl
  | c :: s, h => by
    simp only [List.mem_cons, not_or] at h
    unfold Spec.percentDecode
    split
    · rename_i heq; cases heq
    · rename_i heq; cases heq; exact absurd rfl h.1
    · rename_i heq
      cases heq
      rw [if_neg (fun e => h.1 e.symm), percentDecode_plain s h.2]
      rfl

theorem token_plain : ∀ s : Str, '~' ∉ s → Spec.token s = some s
  | [], _ => rfl
  | c :: s, h => by
    simp only [List.mem_cons, not_or] at h
    unfold Spec.token
    split
    · rename_i heq; cases heq
    · rename_i heq; cases heq; exact absurd rfl h.1
    · rename_i heq; cases heq; exact absurd rfl h.1
    · rename_i heq
      cases heq
      rw [if_neg (fun e => h.1 e.symm), token_plain s h.2]
      rfl

theorem follow_token {S : Type} (t : Tree S) : ∀ (a cur : Str), '/' ∉ a → ∀ s : Str,
    Spec.follow t cur (a ++ '/' :: s) = (Spec.step (cur ++ a) t).bind fun u => Spec.follow u [] s
  | [], cur, _, s => by simp [Spec.follow]
  | c :: a, cur, h, s => by
    simp only [List.mem_cons, not_or] at h
    rw [List.cons_append, Spec.follow, if_neg (fun e => h.1 e.symm), follow_token t a _ h.2 s]
    simp

theorem follow_last {S : Type} (t : Tree S) : ∀ (a cur : Str), '/' ∉ a → Spec.follow t cur a = Spec.step (cur ++ a) t
  | [], cur, _ => by simp [Spec.follow]
  | c :: a, cur, h => by
    simp only [List.mem_cons, not_or] at h
    rw [Spec.follow, if_neg (fun e => h.1 e.symm), follow_last t a _ h.2]
    simp

theorem member_map {V S : Type} (f : V → Tree S) (k : Str) : ∀ m : List (Str × V),
    Spec.member k (m.map fun e => (e.1, f e.2)) = (get k m).map f
  | [] => rfl
  | (a, v) :: m => by
    simp only [List.map_cons, Spec.member, get]
    split
    · rfl
    · exact member_map f k m

/-- A name that needs no escapes in a pointer. -/
def PointerPlain (s : Str) : Prop := '/' ∉ s ∧ '~' ∉ s ∧ '%' ∉ s

theorem resolve_find {S : Type} (d : Doc S) (ns name : Str) (h1 : PointerPlain ns) (h2 : PointerPlain name) (s : S)
    (hf : find d ns name = some s) : Spec.resolve d.json (refText ns name) = some (.schema s) := by
  unfold find at hf
  cases hc : d.components with
  | none => rw [hc] at hf; cases hf
  | some c =>
    rw [hc] at hf
    change (c.schemas.bind (get ns)).bind _ = _ at hf
    cases hm : c.schemas with
    | none => rw [hm] at hf; cases hf
    | some m =>
      rw [hm] at hf
      change (get ns m).bind _ = _ at hf
      cases hp : get ns m with
      | none => rw [hp] at hf; cases hf
      | some p =>
        rw [hp] at hf
        change defOf p name = some s at hf
        unfold defOf at hf
        cases hd : p.defs with
        | none => rw [hd] at hf; cases hf
        | some defs =>
          rw [hd] at hf
          change get name defs = some s at hf
          have e0 : Spec.step ['c', 'o', 'm', 'p', 'o', 'n', 'e', 'n', 't', 's'] d.json = some c.json := by
            unfold Doc.json; rw [hc]
            simp [Spec.step, Spec.token, Spec.member]
          have e1 : Spec.step ['s', 'c', 'h', 'e', 'm', 'a', 's'] c.json = some (.obj (m.map fun e => (e.1, e.2.json))) := by
            unfold Components.json; rw [hm]
            cases m with
            | nil => cases hp
            | cons x m => simp [Spec.step, Spec.token, Spec.member]
          have e2 : Spec.step ns (.obj (m.map fun e => (e.1, e.2.json))) = some p.json := by
            simp only [Spec.step]
            rw [token_plain ns h1.2.1, Option.bind_some, member_map PkgSchema.json, hp]
            rfl
          have e3 : Spec.step ['$', 'd', 'e', 'f', 's'] p.json = some (.obj (defs.map fun e => (e.1, .schema e.2))) := by
            unfold PkgSchema.json; rw [hd]
            cases defs with
            | nil => cases hf
            | cons x m => simp [Spec.step, Spec.token, Spec.member]
          have e4 : Spec.step name (.obj (defs.map fun e => (e.1, Tree.schema e.2))) = some (.schema s) := by
            simp only [Spec.step]
            rw [token_plain name h2.2.1, Option.bind_some, member_map Tree.schema, hf]
            rfl
          have ed : Spec.percentDecode (['/', 'c', 'o', 'm', 'p', 'o', 'n', 'e', 'n', 't', 's', '/', 's', 'c', 'h', 'e', 'm', 'a', 's', '/'] ++
              ns ++ ['/', '$', 'd', 'e', 'f', 's', '/'] ++ name) = some ('/' :: (['c', 'o', 'm', 'p', 'o', 'n', 'e', 'n', 't', 's'] ++ '/' ::
                (['s', 'c', 'h', 'e', 'm', 'a', 's'] ++ '/' :: (ns ++ '/' :: (['$', 'd', 'e', 'f', 's'] ++ '/' :: name))))) := by
            rw [percentDecode_plain _ (by simp [h1.2.2, h2.2.2])]
            simp
          unfold refText
          show (match Spec.percentDecode _ with | some [] => _ | some ('/' :: p) => _ | _ => none) = _
          have e : (['/', 'c', 'o', 'm', 'p', 'o', 'n', 'e', 'n', 't', 's', '/', 's', 'c', 'h', 'e', 'm', 'a', 's', '/'] ++
              ns ++ ['/', '$', 'd', 'e', 'f', 's', '/'] ++ name) = List.append (List.append (List.append ['/', 'c', 'o', 'm', 'p', 'o', 'n', 'e', 'n', 't', 's', '/', 's', 'c', 'h', 'e', 'm', 'a', 's', '/'] ns) ['/', '$', 'd', 'e', 'f', 's', '/']) name := rfl
          rw [e] at ed
          rw [ed]
          show Spec.follow d.json [] _ = _
          rw [follow_token _ _ _ (by decide)]
          simp only [List.nil_append]
          rw [e0, Option.bind_some, follow_token _ _ _ (by decide)]
          simp only [List.nil_append]
          rw [e1, Option.bind_some, follow_token _ _ _ h1.1]
          simp only [List.nil_append]
          rw [e2, Option.bind_some, follow_token _ _ _ (by decide)]
          simp only [List.nil_append]
          rw [e3, Option.bind_some, follow_last _ _ _ h2.1]
          exact e4

/-- C228: a reference is handed out exactly for what was registered. -/
theorem lookup_iff {S : Type} (l : List (Str × Str × S)) (ns name : Str) :
    lookup (registered l) ns name ≠ none ↔ ∃ s, (ns, name, s) ∈ l := by
  have hf : ∀ s, find (registered l) ns name = some s ↔ LastUnder l ns name s := by
    intro s
    unfold registered
    rw [find_foldl]
    constructor
    · rintro (h | ⟨h, _⟩)
      · exact h
      · cases h
    · exact .inl
  rw [lookup_find]
  constructor
  · intro h
    cases hs : find (registered l) ns name with
    | none => rw [hs] at h; exact absurd rfl h
    | some s =>
      obtain ⟨b, a, rfl, _⟩ := (hf s).mp hs
      exact ⟨s, by simp⟩
  · rintro ⟨s, hs⟩ h
    have key : ∀ l : List (Str × Str × S), (∃ s, (ns, name, s) ∈ l) → ∃ s, LastUnder l ns name s := by
      intro l
      induction l with
      | nil => rintro ⟨s, h⟩; cases h
      | cons e l ih =>
        rintro ⟨s, h⟩
        by_cases hl : ∃ s, (ns, name, s) ∈ l
        · obtain ⟨s', b, a, rfl, ha⟩ := ih hl
          exact ⟨s', e :: b, a, rfl, ha⟩
        · rcases List.mem_cons.mp h with rfl | h
          · refine ⟨s, [], l, rfl, ?_⟩
            rintro ⟨x, y, z⟩ he ⟨rfl, rfl⟩
            exact hl ⟨z, he⟩
          · exact absurd ⟨s, h⟩ hl
    obtain ⟨s', hs'⟩ := key l ⟨s, hs⟩
    rw [(hf s').mpr hs'] at h
    cases h

/-- C228 (part): a reference to a name that needs no escapes designates the schema that was registered last under it. -/
theorem ref_resolves_partial {S : Type} (l : List (Str × Str × S)) (ns name ref : Str) (h1 : PointerPlain ns)
    (h2 : PointerPlain name) (h : lookup (registered l) ns name = some ref) :
    ∃ s, LastUnder l ns name s ∧ Spec.resolve (registered l).json ref = some (.schema s) := by
  rw [lookup_find] at h
  cases hs : find (registered l) ns name with
  | none => rw [hs] at h; cases h
  | some s =>
    rw [hs] at h
    cases h
    refine ⟨s, ?_, resolve_find _ ns name h1 h2 s hs⟩
    have := (find_foldl ns name l { components := none } s).mp hs
    rcases this with h | ⟨h, _⟩
    · exact h
    · cases h

theorem isFragment_all : ∀ s : Str, (∀ c ∈ s, Spec.fragmentChar c = true) → Spec.isFragment s = true
  | [], _ => rfl
  | c :: s, h => by
    have hc := h c List.mem_cons_self
    have hs := isFragment_all s (fun x hx => h x (List.mem_cons_of_mem _ hx))
    unfold Spec.isFragment
    split
    · rename_i heq; cases heq
    · rename_i heq
      cases heq
      exact absurd hc (by decide)
    · rename_i heq
      cases heq
      rw [hc, hs]
      rfl

/-- C228 (part): a reference to a name of characters that fragments may have is a URI. -/
theorem ref_uri_partial {S : Type} (l : List (Str × Str × S)) (ns name ref : Str)
    (h1 : ∀ c ∈ ns, Spec.fragmentChar c = true) (h2 : ∀ c ∈ name, Spec.fragmentChar c = true)
    (h : lookup (registered l) ns name = some ref) : Spec.isUri ref = true := by
  rw [lookup_find] at h
  cases hs : find (registered l) ns name with
  | none => rw [hs] at h; cases h
  | some s =>
    rw [hs] at h
    cases h
    show Spec.isFragment (['/', 'c', 'o', 'm', 'p', 'o', 'n', 'e', 'n', 't', 's', '/', 's', 'c', 'h', 'e', 'm', 'a', 's', '/'] ++ ns ++
      ['/', '$', 'd', 'e', 'f', 's', '/'] ++ name) = true
    apply isFragment_all
    intro c hc
    rcases List.mem_append.mp hc with hc | hc
    · rcases List.mem_append.mp hc with hc | hc
      · rcases List.mem_append.mp hc with hc | hc
        · exact (by decide +kernel : ∀ c ∈ ['/', 'c', 'o', 'm', 'p', 'o', 'n', 'e', 'n', 't', 's', '/', 's', 'c', 'h', 'e', 'm', 'a', 's', '/'],
            Spec.fragmentChar c = true) c hc
        · exact h1 c hc
      · exact (by decide +kernel : ∀ c ∈ ['/', '$', 'd', 'e', 'f', 's', '/'], Spec.fragmentChar c = true) c hc
    · exact h2 c hc

theorem isFragment_not : ∀ (n : Nat) (s : Str), s.length ≤ n → '[' ∈ s → Spec.isFragment s = false
  | _, [], _, h => by cases h
  | 0, _ :: _, hl, _ => absurd hl (by simp)
  | n + 1, c :: s, hl, h => by
    unfold Spec.isFragment
    split
    · rename_i heq; cases heq
    · rename_i a b t heq
      cases heq
      have hb : Spec.hex '[' = none := by decide
      rcases List.mem_cons.mp h with e | h
      · exact absurd e (by decide)
      · rcases List.mem_cons.mp h with rfl | h
        · rw [hb]; rfl
        · rcases List.mem_cons.mp h with rfl | h
          · rw [hb]; simp
          · rw [isFragment_not n t (by simp at hl; omega) h, Bool.and_false]
    · rename_i heq
      cases heq
      rcases List.mem_cons.mp h with rfl | h
      · rw [show Spec.fragmentChar '[' = false by decide +kernel]; rfl
      · rw [isFragment_not n s (by simpa using hl) h, Bool.and_false]

/-- C228: no reference to an instance of a generic type is a URI. -/
theorem generic_ref_not_uri {S : Type} (P : Name.Pkg → Prop) (p : Name.Pkg) (n : Str) (t : Name.GTy) (ts : Name.GTys)
    (h : (Name.GTy.named (some p) n (.cons t ts)).Over P) (l : List (Str × Str × S)) (ref : Str)
    (hr : lookup (registered l) (Name.GTy.named (some p) n (.cons t ts)).key.1 (Name.GTy.named (some p) n (.cons t ts)).key.2 = some ref) :
    Spec.isUri ref = false := by
  have hb : '[' ∈ (Name.GTy.named (some p) n (.cons t ts)).key.2 := by
    show '[' ∈ Name.cleanup ((n ++ Name.GTys.brackets (.cons t ts)).length + 1) (n ++ Name.GTys.brackets (.cons t ts))
    simp only [Name.GTys.brackets]
    unfold Name.cleanup
    rw [Name.cut_at _ _ _ (h.2.1.not '[' (by simp [Name.specials])), if_pos rfl]
    simp
  rw [lookup_find] at hr
  cases hs : find (registered l) (Name.GTy.named (some p) n (.cons t ts)).key.1 (Name.GTy.named (some p) n (.cons t ts)).key.2 with
  | none => rw [hs] at hr; cases hr
  | some s =>
    rw [hs] at hr
    cases hr
    exact isFragment_not _ _ (Nat.le_refl _) (List.mem_append_right _ hb)

/-- C228 fails: the reference to `C[s.T, int]` is not a URI. -/
theorem ref_fails : ¬ RefClaim := by
  intro h
  have := (h Nat [(['s'], ['C', '[', 'T', ']'], 7)] ['s'] ['C', '[', 'T', ']'] _ (by rfl)).1
  exact absurd this (by decide +kernel)

/-- C228 fails: a name with a per cent sign (as Go has in `gopkg.in/yaml%2ev2.Node`) is registered under one name and referred
to by another: the reference designates nothing. -/
theorem percent_ref_fails : lookup (registered [(['s'], "y%2ev".toList, 7)]) ['s'] "y%2ev".toList =
      some (refText ['s'] "y%2ev".toList) ∧
    (Spec.resolve (registered [(['s'], "y%2ev".toList, 7)]).json (refText ['s'] "y%2ev".toList)).isNone = true := by
  refine ⟨?_, ?_⟩ <;> decide +kernel

/-- A case of the theorems: two packages, one name registered twice. -/
example : lookup (registered [(['a'], ['T'], 1), (['b'], ['T'], 2), (['a'], ['T'], 3)]) ['a'] ['T'] =
    some "#/components/schemas/a/$defs/T".toList := by decide +kernel

example : PointerPlain ['a'] ∧ PointerPlain "C[s.T, int]".toList := by
  refine ⟨⟨?_, ?_, ?_⟩, ?_, ?_, ?_⟩ <;> decide +kernel

end Verif.Oas.Ref
