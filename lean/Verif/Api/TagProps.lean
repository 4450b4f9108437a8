import Verif.Api.TagModel
import Verif.Api.DocProps
/-!
# C221: tags and documentation do not disturb each other
-/
namespace Verif.Api.Tag
open Verif.Api

/-! ## Specification -/

/-- A key of a tag: not empty, without spaces, control characters, colons and quotes. -/
def IsKey (k : Str) : Prop := k ≠ [] ∧ ∀ c ∈ k, 32 < c.toNat ∧ c ≠ ':' ∧ c ≠ '"' ∧ c.toNat ≠ 127

/-- A text as it is written between quotes: quotes and backslashes are after a backslash, and there are no newlines. -/
inductive IsValue : Str → Prop
  | nil : IsValue []
  | plain (c : Char) (v : Str) : c ≠ '"' → c ≠ '\\' → c ≠ '\n' → IsValue v → IsValue (c :: v)
  | escaped (c : Char) (v : Str) : c ≠ '\n' → IsValue v → IsValue ('\\' :: c :: v)

/-- A pair of a tag, after some spaces. -/
structure Pair where
  spaces : Nat
  key : Str
  value : Str

/-- `key:"value"` pairs one after the other. -/
def written : List Pair → Str
  | [] => []
  | p :: ps => List.replicate p.spaces ' ' ++ p.key ++ ':' :: '"' :: p.value ++ '"' :: written ps

/-- A tag as the conventions have it. -/
def IsTag (ps : List Pair) : Prop := ∀ p ∈ ps, IsKey p.key ∧ IsValue p.value

/-- The first value of the key, as it is written. -/
inductive First (k : Str) : List Pair → Str → Prop
  | here (p : Pair) (ps : List Pair) : p.key = k → First k (p :: ps) p.value
  | there (p : Pair) (ps : List Pair) (v : Str) : p.key ≠ k → First k ps v → First k (p :: ps) v

/-- What may come after the pairs: spaces, and a newline with anything after it. -/
inductive IsRest : Str → Prop
  | spaces (n : Nat) : IsRest (List.replicate n ' ')
  | text (n : Nat) (docs : Str) : IsRest (List.replicate n ' ' ++ '\n' :: docs)

/-! ## Lemmas -/

theorem isKey_of {k : Str} (h : IsKey k) : ∀ c ∈ k, isKey c = true := by
  intro c hc
  obtain ⟨h1, h2, h3, h4⟩ := h.2 c hc
  have hlt : ' ' < c := by
    show ' '.val < c.val
    rw [UInt32.lt_iff_toNat_lt]
    exact h1
  have h7 : c ≠ '\x7f' := by rintro rfl; exact h4 rfl
  simp [isKey, hlt, h2, h3, h7]

theorem quoted_value {v : Str} (h : IsValue v) (r : Str) : quoted (v ++ '"' :: r) = some (v, r) := by
  induction h with
  | nil => rw [List.nil_append, quoted.eq_def]; simp
  | plain c v h1 h2 _ _ ih => rw [List.cons_append, quoted.eq_def]; simp [h1, h2, ih]
  | escaped c v _ _ ih =>
    rw [List.cons_append, List.cons_append, quoted.eq_def]
    simp [ih]

theorem drop_spaces (n : Nat) (s : Str) (h : s.head? ≠ some ' ') :
    (List.replicate n ' ' ++ s).dropWhile (· = ' ') = s := by
  induction n with
  | zero =>
    cases s with
    | nil => rfl
    | cons c s => simp at h; simp [List.dropWhile, h]
  | succ n ih => simpa [List.replicate_succ, List.dropWhile] using ih

theorem split_key {k : Str} (h : ∀ c ∈ k, isKey c = true) (s : Str) :
    (k ++ ':' :: s).takeWhile isKey = k ∧ (k ++ ':' :: s).dropWhile isKey = ':' :: s := by
  have hc : isKey ':' = false := by decide
  induction k with
  | nil => simp [hc]
  | cons c k ih =>
    have := ih fun c hc => h c (by simp [hc])
    simp [h c (by simp), this.1, this.2]

theorem lookup_rest (unquote : Str → Option Str) (key : Str) (n : Nat) {r : Str} (h : IsRest r) :
    lookupIn unquote key n r = none := by
  cases n with
  | zero => rfl
  | succ n =>
    unfold lookupIn
    cases h with
    | spaces m =>
      have := drop_spaces m [] (by simp)
      simp only [List.append_nil] at this
      simp [this]
    | text m d =>
      have hn : isKey '\n' = false := by decide
      rw [drop_spaces m _ (by simp)]
      simp [hn, List.dropWhile]

theorem lookup_written (unquote : Str → Option Str) (key : Str) : ∀ (ps : List Pair) (n : Nat) (r : Str), IsTag ps → IsRest r →
    (written ps).length ≤ n →
    (∀ v, First key ps v → lookupIn unquote key n (written ps ++ r) = unquote v) ∧
      ((∀ v, ¬ First key ps v) → lookupIn unquote key n (written ps ++ r) = none)
  | [], n, r, _, hr, _ => ⟨fun v h => (nomatch h), fun _ => lookup_rest unquote key n hr⟩
  | p :: ps, 0, r, _, _, hl => by simp [written] at hl
  | p :: ps, n + 1, r, ht, hr, hl => by
    obtain ⟨hk, hv⟩ := ht p (by simp)
    have hlen : (written ps).length ≤ n := by
      simp [written] at hl
      omega
    have ih := lookup_written unquote key ps n r (fun q hq => ht q (by simp [hq])) hr hlen
    have hshape : written (p :: ps) ++ r =
        List.replicate p.spaces ' ' ++ (p.key ++ ':' :: '"' :: (p.value ++ '"' :: (written ps ++ r))) := by
      simp [written]
    have hhead : (p.key ++ ':' :: '"' :: (p.value ++ '"' :: (written ps ++ r))).head? ≠ some ' ' := by
      cases hkk : p.key with
      | nil => exact absurd hkk hk.1
      | cons c k =>
        have := (hk.2 c (by simp [hkk])).1
        simp
        rintro rfl
        exact absurd this (by decide)
    have step : lookupIn unquote key (n + 1) (written (p :: ps) ++ r) =
        if key = p.key then unquote p.value else lookupIn unquote key n (written ps ++ r) := by
      rw [hshape]
      conv => lhs; unfold lookupIn
      dsimp only
      rw [drop_spaces _ _ hhead, (split_key (isKey_of hk) _).1, (split_key (isKey_of hk) _).2]
      simp only [hk.1, if_false, quoted_value hv]
    rw [step]
    constructor
    · intro v h
      cases h with
      | here _ _ e => rw [if_pos e.symm]
      | there _ _ _ e h => rw [if_neg (Ne.symm e)]; exact ih.1 v h
    · intro h
      have e : key ≠ p.key := fun e => h _ (.here p ps e.symm)
      rw [if_neg e]
      exact ih.2 fun v hv => h v (.there p ps v (Ne.symm e) hv)

theorem value_line {v : Str} (h : IsValue v) : '\n' ∉ v := by
  induction h with
  | nil => simp
  | plain c v _ _ h3 _ ih => simp [Ne.symm h3, ih]
  | escaped c v h1 _ ih => simp [Ne.symm h1, ih]

theorem written_line {ps : List Pair} (h : IsTag ps) : '\n' ∉ written ps := by
  induction ps with
  | nil => simp [written]
  | cons p ps ih =>
    obtain ⟨hk, hv⟩ := h p (by simp)
    have hkey : '\n' ∉ p.key := fun hc => absurd (hk.2 _ hc).1 (by decide)
    simp [written, hkey, value_line hv, ih fun q hq => h q (by simp [hq])]

theorem no_newline {s : Str} (h : '\n' ∉ s) : documentationOf s = none := by
  have : afterNewline s = none := by
    induction s with
    | nil => rfl
    | cons c s ih =>
      simp only [List.mem_cons, not_or] at h
      simp [afterNewline, Ne.symm h.1, ih h.2]
  simp [documentationOf, this]

/-! ## C221 -/

/-- Every key of a tag is read as its first value, whatever documentation comes after the pairs. -/
theorem key_is_read (unquote : Str → Option Str) (ps : List Pair) (r k v : Str) (ht : IsTag ps) (hr : IsRest r)
    (h : First k ps v) : lookup unquote k (written ps ++ r) = unquote v :=
  (lookup_written unquote k ps _ r ht hr (by simp)).1 v h

/-- What is written in the documentation is never read as a tag. -/
theorem docs_are_no_tags (unquote : Str → Option Str) (ps : List Pair) (r k : Str) (ht : IsTag ps) (hr : IsRest r)
    (h : ∀ p ∈ ps, p.key ≠ k) : lookup unquote k (written ps ++ r) = none := by
  refine (lookup_written unquote k ps _ r ht hr (by simp)).2 ?_
  intro v hf
  induction hf with
  | here p ps e => exact h p (by simp) e
  | there p ps v _ _ ih => exact ih (fun q hq => ht q (by simp [hq])) fun q hq => h q (by simp [hq])

/-- The documentation of a field with text after its tag is that text, line by line without the indentation of its first
line, whatever the tag and the type say. -/
theorem text_documents (unquote : Str → Option Str) (ps : List Pair) (spaces n : Nat) (text : Str) (more : List Str)
    (type : Option Ty) (ht : IsTag ps) (hi : text.head? ≠ some '\t') (hn : '\n' ∉ text) (hm : ∀ l ∈ more, '\n' ∉ l) :
    docsOf unquote (.mk (written ps ++ List.replicate spaces ' ' ++
      '\n' :: unlines ((List.replicate n '\t' ++ text) :: more)) type) = unlines (text :: more.map (dedent n)) := by
  have := documentation (written ps ++ List.replicate spaces ' ') (List.replicate n '\t' ++ text) more n text
    (by simp [written_line ht]) hi rfl (by simp [hn]) hm
  rw [docsOf.eq_def]
  dsimp only
  rw [this]

/-- Without text after the tag, it is the value of `docs` if there is one, and else what the type says. -/
theorem tag_documents (unquote : Str → Option Str) (ps : List Pair) (spaces : Nat) (v text : Str) (type : Option Ty)
    (ht : IsTag ps) (h : First "docs".toList ps v) (hv : unquote v = some text) :
    docsOf unquote (.mk (written ps ++ List.replicate spaces ' ') type) = text := by
  have h1 := no_newline (s := written ps ++ List.replicate spaces ' ') (by simp [written_line ht])
  have h2 := key_is_read unquote ps _ _ v ht (.spaces spaces) h
  have e : ['d', 'o', 'c', 's'] = "docs".toList := by decide +kernel
  rw [docsOf.eq_def]
  simp only [h1, e, h2, hv]

/-- A type documents its fields that say nothing: by its `Docs` method, else by what documents the struct that it embeds
first; with neither there is no documentation. -/
theorem type_documents (unquote : Str → Option Str) (ps : List Pair) (spaces : Nat) (ht : IsTag ps)
    (h : ∀ p ∈ ps, p.key ≠ "docs".toList) :
    let field := fun type => Field.mk (written ps ++ List.replicate spaces ' ') type
    (∀ text e, docsOf unquote (field (some (.mk (some text) e))) = text) ∧
    (∀ f, docsOf unquote (field (some (.mk none (some f)))) = docsOf unquote f) ∧
    docsOf unquote (field (some (.mk none none))) = [] ∧ docsOf unquote (field none) = [] := by
  have h1 := no_newline (s := written ps ++ List.replicate spaces ' ') (by simp [written_line ht])
  have e : ['d', 'o', 'c', 's'] = "docs".toList := by decide +kernel
  have h2 := docs_are_no_tags unquote ps _ _ ht (.spaces spaces) h
  refine ⟨fun text em => ?_, fun f => ?_, ?_, ?_⟩ <;> rw [docsOf.eq_def] <;> simp only [h1, e, h2]

/-- `rest:"GET /" docs:"adds"`: a tag as in the theorems. -/
def sample : List Pair := [⟨0, "rest".toList, "GET /\\\"".toList⟩, ⟨1, "docs".toList, "adds".toList⟩]

example : IsTag sample ∧ First "docs".toList sample "adds".toList ∧
    lookup some "docs".toList (written sample ++ "\nsee api:\"x\"".toList) = some "adds".toList ∧
    lookup some "api".toList (written sample ++ "\nsee api:\"x\"".toList) = none := by
  refine ⟨?_, ?_, by decide +kernel, by decide +kernel⟩
  · intro p hp
    have key : ∀ k : Str, (k ≠ [] ∧ ∀ c ∈ k, 32 < c.toNat ∧ c ≠ ':' ∧ c ≠ '"' ∧ c.toNat ≠ 127) → IsKey k := fun _ h => h
    simp only [sample, List.mem_cons, List.not_mem_nil, or_false] at hp
    rcases hp with rfl | rfl
    · refine ⟨key _ (by decide +kernel), ?_⟩
      show IsValue ['G', 'E', 'T', ' ', '/', '\\', '"']
      exact .plain _ _ (by decide) (by decide) (by decide) <| .plain _ _ (by decide) (by decide) (by decide) <|
        .plain _ _ (by decide) (by decide) (by decide) <| .plain _ _ (by decide) (by decide) (by decide) <|
        .plain _ _ (by decide) (by decide) (by decide) <| .escaped _ _ (by decide) .nil
    · refine ⟨key _ (by decide +kernel), ?_⟩
      show IsValue ['a', 'd', 'd', 's']
      exact .plain _ _ (by decide) (by decide) (by decide) <| .plain _ _ (by decide) (by decide) (by decide) <|
        .plain _ _ (by decide) (by decide) (by decide) <| .plain _ _ (by decide) (by decide) (by decide) .nil
  · exact .there _ _ _ (by decide +kernel) (.here _ _ rfl)

/-- `DocumentationOf` is said to ignore any tab characters inside the text; it ignores the indentation only. -/
theorem tabs_fails (unquote : Str → Option Str) (type : Option Ty) :
    '\t' ∈ docsOf unquote (.mk ("\n\ta\n\t\tb".toList) type) := by
  have e : "\n\ta\n\t\tb".toList = written [] ++ List.replicate 0 ' ' ++
      '\n' :: unlines ((List.replicate 1 '\t' ++ ['a']) :: [['\t', '\t', 'b']]) := by decide +kernel
  rw [e, text_documents unquote [] 0 1 ['a'] [['\t', '\t', 'b']] type (by simp [IsTag]) (by decide) (by decide)
    (by decide)]
  decide +kernel

end Verif.Api.Tag
