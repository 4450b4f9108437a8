import Verif.Oas.NameModel
/-!
# Types have their own schemas (C227)

Schemas are registered and looked up by the namespace and name of the type, so types with the same key get the same schema.
-/
namespace Verif.Oas.Name

/-- The characters that separate the parts of names. -/
def specials : List Char := ['[', ']', ',', '/', '·', '.', '*', ' ']

/-- An identifier: not empty, without separators. -/
def Ident (s : Str) : Prop := s ≠ [] ∧ ∀ c ∈ specials, c ∉ s

/-- The elements of a path: not empty, and without the characters that separate names. -/
def Pkg.Good (p : Pkg) : Prop := Ident p.last ∧ ∀ d ∈ p.dirs, d ≠ [] ∧ ∀ c ∈ ['[', ']', ',', '·', '/'], c ∉ d

mutual
/-- All packages of the type are among these, and names are identifiers. -/
def GTy.Over (P : Pkg → Prop) : GTy → Prop
  | .named pkg name args => (∀ p, pkg = some p → P p ∧ p.Good) ∧ Ident name ∧ args.Over P
  | .ptr t => t.Over P
  | .slice t => t.Over P
  | .map k v => k.Over P ∧ v.Over P

/-- And of the arguments. -/
def GTys.Over (P : Pkg → Prop) : GTys → Prop
  | .nil => True
  | .cons t ts => t.Over P ∧ ts.Over P
end

/-- C227: declared types of a program in which no two packages have the same last element have the same schema only if they
are the same. -/
def OwnSchemaClaim : Prop :=
  ∀ (P : Pkg → Prop), (∀ p q, P p → P q → p.last = q.last → p = q) →
    ∀ (p q : Pkg) (m n : Str) (as bs : GTys), (GTy.named (some p) m as).Over P → (GTy.named (some q) n bs).Over P →
      (GTy.named (some p) m as).key = (GTy.named (some q) n bs).key → GTy.named (some p) m as = GTy.named (some q) n bs

/-- An argument that is a declared or predeclared type with at most one argument, which is such a type again. -/
def GTy.Chain : GTy → Prop
  | .named _ _ .nil => True
  | .named _ _ (.cons t .nil) => t.Chain
  | .named _ _ (.cons _ (.cons _ _)) => False
  | .ptr _ => False
  | .slice _ => False
  | .map _ _ => False

/-- All arguments are. -/
def GTys.Chains : GTys → Prop
  | .nil => True
  | .cons t ts => t.Chain ∧ ts.Chains

/-- The last element of the package and a dot. -/
def shortQualifier : Option Pkg → Str
  | none => []
  | some p => p.last ++ ['.']

mutual
/-- A type as a reader of the document expects it: packages by their names, arguments with commas and spaces. -/
def GTy.short : GTy → Str
  | .named pkg name args => shortQualifier pkg ++ name ++ args.shortBrackets
  | .ptr t => '*' :: t.short
  | .slice t => '[' :: ']' :: t.short
  | .map k v => ['m', 'a', 'p', '['] ++ k.short ++ ']' :: v.short

/-- The arguments in brackets. -/
def GTys.shortBrackets : GTys → Str
  | .nil => []
  | .cons t ts => '[' :: (t.short ++ ts.shortTail ++ [']'])

/-- The arguments after the first. -/
def GTys.shortTail : GTys → Str
  | .nil => []
  | .cons t ts => ',' :: ' ' :: (t.short ++ ts.shortTail)
end

/-! ## Cutting -/

theorem cut_none (c : Char) : ∀ s : Str, c ∉ s → cut c s = (s, [], false)
  | [], _ => rfl
  | d :: s, h => by
    simp only [List.mem_cons, not_or] at h
    unfold cut
    rw [if_neg (fun e => h.1 e.symm), cut_none c s h.2]

theorem cut_at (c : Char) : ∀ (s t : Str), c ∉ s → cut c (s ++ c :: t) = (s, t, true)
  | [], t, _ => by simp [cut]
  | d :: s, t, h => by
    simp only [List.mem_cons, not_or] at h
    rw [List.cons_append]
    unfold cut
    rw [if_neg (fun e => h.1 e.symm), cut_at c s t h.2]

theorem trimSuffix_append (x : Char) : ∀ s : Str, trimSuffix x (s ++ [x]) = s
  | [] => by simp [trimSuffix]
  | [c] => by simp [trimSuffix]
  | c :: d :: s => by
    show c :: trimSuffix x ((d :: s) ++ [x]) = _
    rw [trimSuffix_append x (d :: s)]

theorem split_none (c : Char) : ∀ s : Str, c ∉ s → split c s = [s]
  | [], _ => rfl
  | d :: s, h => by
    simp only [List.mem_cons, not_or] at h
    unfold split
    rw [if_neg (fun e => h.1 e.symm), split_none c s h.2]

theorem split_at (c : Char) : ∀ (s t : Str), c ∉ s → split c (s ++ c :: t) = s :: split c t
  | [], t, _ => by
    show split c (c :: t) = _
    rw [split, if_pos rfl]
  | d :: s, t, h => by
    simp only [List.mem_cons, not_or] at h
    rw [List.cons_append]
    rw [split, if_neg (fun e => h.1 e.symm), split_at c s t h.2]

theorem takeWhile_stop (f : Char → Bool) : ∀ (s t : Str), (∀ c ∈ s, f c = true) → ∀ d, f d = false →
    (s ++ d :: t).takeWhile f = s
  | [], t, _, d, hd => by simp [hd]
  | c :: s, t, h, d, hd => by
    rw [List.cons_append, List.takeWhile_cons, if_pos (h c List.mem_cons_self),
      takeWhile_stop f s t (fun x hx => h x (List.mem_cons_of_mem _ hx)) d hd]

theorem takeWhile_all (f : Char → Bool) : ∀ (s : Str), (∀ c ∈ s, f c = true) → s.takeWhile f = s
  | [], _ => rfl
  | c :: s, h => by
    rw [List.takeWhile_cons, if_pos (h c List.mem_cons_self), takeWhile_all f s (fun x hx => h x (List.mem_cons_of_mem _ hx))]

/-- The base of a path whose last element is not empty. -/
theorem pathBase_last (ds : List Str) (l : Str) (hl : l ≠ []) (hs : '/' ∉ l) :
    pathBase ((ds.map (· ++ ['/'])).flatten ++ l) = l := by
  have hne : (ds.map (· ++ ['/'])).flatten ++ l ≠ [] := by simp [hl]
  unfold pathBase
  rw [if_neg hne]
  have hr : l.reverse ≠ [] := by simpa using hl
  have hsr : ∀ c ∈ l.reverse, c ≠ '/' := by
    intro c hc e
    subst e
    exact hs (by simpa using hc)
  have hd : ∀ t : Str, (l.reverse ++ t).dropWhile (· = '/') = l.reverse ++ t := by
    intro t
    cases hc : l.reverse with
    | nil => exact absurd hc hr
    | cons c r =>
      have := hsr c (by rw [hc]; exact List.mem_cons_self)
      rw [List.cons_append, List.dropWhile_cons, if_neg (by simpa using this)]
  rw [List.reverse_append]
  simp only [hd]
  rw [if_neg (by simp [hl])]
  rcases List.eq_nil_or_concat ds with rfl | ⟨ds', d, rfl⟩
  · simp only [List.map_nil, List.flatten_nil, List.reverse_nil, List.append_nil]
    rw [takeWhile_all _ _ (fun c hc => by simpa using hsr c hc), List.reverse_reverse]
  · rw [List.concat_eq_append, List.map_append, List.flatten_append]
    simp only [List.map_cons, List.map_nil, List.flatten_cons, List.flatten_nil, List.append_nil, List.reverse_append,
      List.reverse_cons, List.reverse_nil, List.nil_append, List.append_assoc, List.singleton_append, List.cons_append]
    rw [takeWhile_stop _ _ _ (fun c hc => by simpa using hsr c hc) '/' (by simp), List.reverse_reverse]

theorem path_contains_iff (p : Pkg) (c : Char) (hd : ∀ d ∈ p.dirs, c ∉ d) (hl : c ∉ p.last) (hc : c ≠ '/') : c ∉ p.path := by
  unfold Pkg.path
  intro h
  rcases List.mem_append.mp h with h | h
  · obtain ⟨x, hx, hm⟩ := List.mem_flatten.mp h
    obtain ⟨d, hdm, rfl⟩ := List.mem_map.mp hx
    rcases List.mem_append.mp hm with hm | hm
    · exact hd d hdm hm
    · rw [List.mem_singleton] at hm; exact hc hm
  · exact hl h

theorem Ident.not {s : Str} (h : Ident s) (c : Char) (hc : c ∈ specials) : c ∉ s := h.2 c hc

/-- What stands before the brackets is reduced to the name of the package and of the type. -/
theorem cleanParent_named (pkg : Option Pkg) (name : Str) (hp : ∀ p, pkg = some p → p.Good) (hn : Ident name) :
    cleanParent (qualifier pkg ++ name) = shortQualifier pkg ++ name := by
  have n1 : '/' ∉ name := hn.not _ (by simp [specials])
  have n2 : '·' ∉ name := hn.not _ (by simp [specials])
  cases pkg with
  | none =>
    show cleanParent name = name
    unfold cleanParent
    rw [if_neg (by simpa using n1), cut_none _ _ n2]
  | some p =>
    obtain ⟨hl, hd⟩ := hp p rfl
    have l1 : '/' ∉ p.last := hl.not _ (by simp [specials])
    have l2 : '·' ∉ p.last := hl.not _ (by simp [specials])
    have e : (if (qualifier (some p) ++ name).contains '/' then pathBase (qualifier (some p) ++ name)
        else qualifier (some p) ++ name) = p.last ++ ['.'] ++ name := by
      have eq : qualifier (some p) ++ name = (p.dirs.map (· ++ ['/'])).flatten ++ (p.last ++ ['.'] ++ name) := by
        simp [qualifier, Pkg.path, List.append_assoc]
      rw [eq]
      split
      · exact pathBase_last p.dirs _ (by simp) (by simp [l1, n1])
      · rename_i h
        cases hds : p.dirs with
        | nil => simp
        | cons d ds =>
          exfalso
          apply h
          rw [hds]
          simp
    unfold cleanParent
    rw [e, cut_none _ _ (by simp [l2, n2])]
    rfl

theorem named_not (pkg : Option Pkg) (name : Str) (hp : ∀ p, pkg = some p → p.Good) (hn : Ident name) (c : Char)
    (hc : c ∈ ['[', ']', ',']) : c ∉ qualifier pkg ++ name := by
  have hs : c ∈ specials := by
    simp only [List.mem_cons, List.not_mem_nil, or_false] at hc
    rcases hc with rfl | rfl | rfl <;> simp [specials]
  have n1 := hn.not c hs
  cases pkg with
  | none => simpa [qualifier] using n1
  | some p =>
    obtain ⟨hl, hd⟩ := hp p rfl
    have hne : c ≠ '/' := by
      simp only [List.mem_cons, List.not_mem_nil, or_false] at hc
      rcases hc with rfl | rfl | rfl <;> decide
    have hdot : c ≠ '.' := by
      simp only [List.mem_cons, List.not_mem_nil, or_false] at hc
      rcases hc with rfl | rfl | rfl <;> decide
    have := path_contains_iff p c (fun d hd' => (hd d hd').2 c (by
      simp only [List.mem_cons, List.not_mem_nil, or_false] at hc ⊢
      rcases hc with h | h | h <;> simp [h])) (hl.not c hs) hne
    simp [qualifier, this, hdot, n1]

/-- Chains have no commas. -/
theorem chain_no_comma (P : Pkg → Prop) : ∀ t : GTy, t.Over P → t.Chain → ',' ∉ t.text
  | .named pkg name .nil, h, _ => by
    have := named_not pkg name (fun p hp => (h.1 p hp).2) h.2.1 ',' (by simp)
    simpa [GTy.text, GTys.brackets] using this
  | .named pkg name (.cons t .nil), h, hc => by
    have h1 := named_not pkg name (fun p hp => (h.1 p hp).2) h.2.1 ',' (by simp)
    have h2 := chain_no_comma P t h.2.2.1 hc
    simp only [GTy.text, GTys.brackets, GTys.tail]
    simp only [List.mem_append, not_or] at h1 ⊢
    refine ⟨h1, ?_⟩
    simp [h2]
  | .named _ _ (.cons _ (.cons _ _)), _, hc => absurd hc id
  | .ptr _, _, hc => absurd hc id
  | .slice _, _, hc => absurd hc id
  | .map _ _, _, hc => absurd hc id

theorem text_ne_nil (P : Pkg → Prop) (t : GTy) (h : t.Over P) (hc : t.Chain) : t.short ≠ [] := by
  cases t with
  | named pkg name args =>
    have := h.2.1.1
    simp [GTy.short, this]
  | ptr => exact absurd hc id
  | slice => exact absurd hc id
  | map => exact absurd hc id

/-- Chains are written as expected. -/
theorem cleanup_chain (P : Pkg → Prop) : ∀ (t : GTy) (fuel : Nat), t.Over P → t.Chain → t.text.length < fuel →
    cleanup fuel t.text = t.short
  | t, 0, _, _, hf => absurd hf (by omega)
  | .named pkg name .nil, fuel + 1, h, _, _ => by
    have hp := fun p hp => (h.1 p hp).2
    have e : (GTy.named pkg name .nil).text = qualifier pkg ++ name := by simp [GTy.text, GTys.brackets]
    rw [e]
    unfold cleanup
    rw [cut_none _ _ (named_not pkg name hp h.2.1 '[' (by simp))]
    rw [if_neg (by simp), cleanParent_named pkg name hp h.2.1]
    simp [GTy.short, GTys.shortBrackets]
  | .named pkg name (.cons t .nil), fuel + 1, h, hc, hf => by
    have hp := fun p hp => (h.1 p hp).2
    have e : (GTy.named pkg name (.cons t .nil)).text = (qualifier pkg ++ name) ++ '[' :: (t.text ++ [']']) := by
      simp [GTy.text, GTys.brackets, GTys.tail]
    rw [e] at hf ⊢
    unfold cleanup
    rw [cut_at _ _ _ (named_not pkg name hp h.2.1 '[' (by simp))]
    rw [if_pos rfl, cleanParent_named pkg name hp h.2.1]
    dsimp only
    rw [trimSuffix_append, split_none _ _ (chain_no_comma P t h.2.2.1 hc)]
    have ih := cleanup_chain P t fuel h.2.2.1 hc (by simp at hf; omega)
    simp [joinParts, ih, GTy.short, GTys.shortBrackets, GTys.shortTail]
  | .named _ _ (.cons _ (.cons _ _)), _ + 1, _, hc, _ => absurd hc id
  | .ptr _, _ + 1, _, hc, _ => absurd hc id
  | .slice _, _ + 1, _, hc, _ => absurd hc id
  | .map _ _, _ + 1, _, hc, _ => absurd hc id

/-- The parts of a list of chains. -/
theorem split_chains (P : Pkg → Prop) (fuel : Nat) : ∀ (ts : GTys) (t : GTy), t.Over P → t.Chain → ts.Over P → ts.Chains →
    (t.text ++ ts.tail).length < fuel → ∀ renew : Str, 
    joinParts renew ((split ',' (t.text ++ ts.tail)).map (cleanup fuel)) =
      (if renew = [] then [] else renew ++ [',', ' ']) ++ t.short ++ ts.shortTail
  | .nil, t, h, hc, _, _, hf, renew => by
    simp only [GTys.tail, GTys.shortTail, List.append_nil] at hf ⊢
    rw [split_none _ _ (chain_no_comma P t h hc)]
    simp [joinParts, cleanup_chain P t fuel h hc hf]
  | .cons u us, t, h, hc, hs, hcs, hf, renew => by
    simp only [GTys.tail, GTys.shortTail] at hf ⊢
    rw [split_at _ _ _ (chain_no_comma P t h hc), List.map_cons]
    have hlen : t.text.length < fuel := by simp at hf; omega
    rw [cleanup_chain P t fuel h hc hlen]
    show joinParts ((if renew = [] then [] else renew ++ [',', ' ']) ++ t.short) _ = _
    rw [split_chains P fuel us u hs.1 hcs.1 hs.2 hcs.2 (by simp at hf ⊢; omega)]
    rw [if_neg (by simp [text_ne_nil P t h hc])]
    simp [List.append_assoc]

/-- C227 (part): the schema of a declared type whose arguments are chains is named as a reader expects it: by the last
element of the package, and by the name with its arguments, separated by commas and spaces, by their short names. -/
theorem name_read_partial (P : Pkg → Prop) (p : Pkg) (n : Str) (args : GTys) (h : (GTy.named (some p) n args).Over P)
    (hc : args.Chains) : (GTy.named (some p) n args).key = (p.last, n ++ args.shortBrackets) := by
  obtain ⟨h1, h2, h3⟩ := h
  obtain ⟨hl, hd⟩ := (h1 p rfl).2
  have l1 : '/' ∉ p.last := hl.not _ (by simp [specials])
  unfold GTy.key namespaceName
  refine Prod.ext ?_ ?_
  · show pathBase p.path = p.last
    exact pathBase_last p.dirs p.last hl.1 l1
  · show cleanup ((n ++ args.brackets).length + 1) (n ++ args.brackets) = _
    have hn1 := cleanParent_named none n (fun p hp => by cases hp) h2
    simp only [qualifier, shortQualifier, List.nil_append] at hn1
    have hn2 := h2.not '[' (by simp [specials])
    cases args with
    | nil =>
      simp only [GTys.brackets, GTys.shortBrackets, List.append_nil]
      unfold cleanup
      rw [cut_none _ _ hn2, if_neg (by simp), hn1]
    | cons t ts =>
      simp only [GTys.brackets, GTys.shortBrackets]
      unfold cleanup
      rw [cut_at _ _ _ hn2, if_pos rfl, hn1]
      dsimp only
      rw [trimSuffix_append, split_chains P _ ts t h3.1 hc.1 h3.2 hc.2 (by simp; omega)]
      simp [List.append_assoc]

/-! ## Names tell types apart -/

theorem free_prefix (c : Char) : ∀ (a b x y : Str), c ∉ a → c ∉ b → (x = [] ∨ x.head? = some c) → (y = [] ∨ y.head? = some c) →
    a ++ x = b ++ y → a = b ∧ x = y
  | [], [], x, y, _, _, _, _, h => ⟨rfl, h⟩
  | [], d :: b, x, y, _, hb, hx, _, h => by
    exfalso
    rcases hx with rfl | hx
    · simp at h
    · simp only [List.nil_append] at h
      rw [h] at hx
      simp at hx
      exact hb (by simp [hx])
  | d :: a, [], x, y, ha, _, _, hy, h => by
    exfalso
    rcases hy with rfl | hy
    · simp at h
    · simp only [List.nil_append] at h
      rw [← h] at hy
      simp at hy
      exact ha (by simp [hy])
  | d :: a, e :: b, x, y, ha, hb, hx, hy, h => by
    simp only [List.cons_append, List.cons.injEq] at h
    simp only [List.mem_cons, not_or] at ha hb
    obtain ⟨h1, h2⟩ := free_prefix c a b x y ha.2 hb.2 hx hy h.2
    exact ⟨by rw [h.1, h1], h2⟩

theorem brackets_head (ts : GTys) : ts.shortBrackets = [] ∨ ts.shortBrackets.head? = some '[' := by
  cases ts with
  | nil => exact .inl rfl
  | cons t ts => exact .inr rfl

theorem tail_head (ts : GTys) : ts.shortTail = [] ∨ ts.shortTail.head? = some ',' := by
  cases ts with
  | nil => exact .inl rfl
  | cons t ts => exact .inr rfl

theorem short_qualified_not (P : Pkg → Prop) (pkg : Option Pkg) (n : Str) (hp : ∀ p, pkg = some p → P p ∧ p.Good) (hn : Ident n)
    (c : Char) (hc : c ∈ ['[', ',']) : c ∉ shortQualifier pkg ++ n := by
  have hs : c ∈ specials ∧ c ≠ '.' := by
    simp only [List.mem_cons, List.not_mem_nil, or_false] at hc
    rcases hc with rfl | rfl <;> simp [specials]
  cases pkg with
  | none => simpa [shortQualifier] using hn.not c hs.1
  | some p => simp [shortQualifier, hn.not c hs.1, (hp p rfl).2.1.not c hs.1, hs.2]

/-- The package and the name can be read off. -/
theorem qualified_inj (P : Pkg → Prop) (hu : ∀ p q, P p → P q → p.last = q.last → p = q) (p q : Option Pkg) (m n : Str)
    (hp : ∀ x, p = some x → P x ∧ x.Good) (hq : ∀ x, q = some x → P x ∧ x.Good) (hm : Ident m) (hn : Ident n)
    (h : shortQualifier p ++ m = shortQualifier q ++ n) : p = q ∧ m = n := by
  have m1 := hm.not '.' (by simp [specials])
  have n1 := hn.not '.' (by simp [specials])
  cases p with
  | none =>
    cases q with
    | none => exact ⟨rfl, by simpa [shortQualifier] using h⟩
    | some y =>
      exfalso
      apply m1
      simp only [shortQualifier, List.nil_append] at h
      rw [h]
      simp
  | some x =>
    cases q with
    | none =>
      exfalso
      apply n1
      simp only [shortQualifier, List.nil_append] at h
      rw [← h]
      simp
    | some y =>
      simp only [shortQualifier, List.append_assoc, List.singleton_append] at h
      obtain ⟨h1, h2⟩ := free_prefix '.' x.last y.last _ _ ((hp x rfl).2.1.not '.' (by simp [specials]))
        ((hq y rfl).2.1.not '.' (by simp [specials])) (.inr rfl) (.inr rfl) h
      exact ⟨by rw [hu x y (hp x rfl).1 (hq y rfl).1 h1], by simpa using h2⟩

theorem short_chain_no_comma (P : Pkg → Prop) : ∀ t : GTy, t.Over P → t.Chain → ',' ∉ t.short
  | .named pkg name .nil, h, _ => by
    have := short_qualified_not P pkg name h.1 h.2.1 ',' (by simp)
    simpa [GTy.short, GTys.shortBrackets] using this
  | .named pkg name (.cons t .nil), h, hc => by
    have h1 := short_qualified_not P pkg name h.1 h.2.1 ',' (by simp)
    have h2 := short_chain_no_comma P t h.2.2.1 hc
    simp only [GTy.short, GTys.shortBrackets, GTys.shortTail]
    simp only [List.mem_append, not_or] at h1 ⊢
    refine ⟨h1, ?_⟩
    simp [h2]
  | .named _ _ (.cons _ (.cons _ _)), _, hc => absurd hc id
  | .ptr _, _, hc => absurd hc id
  | .slice _, _, hc => absurd hc id
  | .map _ _, _, hc => absurd hc id

theorem short_chain_inj (P : Pkg → Prop) (hu : ∀ p q, P p → P q → p.last = q.last → p = q) :
    ∀ (t u : GTy), t.Over P → u.Over P → t.Chain → u.Chain → t.short = u.short → t = u
  | .named p m as, .named q n bs, ht, hv, hc, hd, h => by
    simp only [GTy.short] at h
    obtain ⟨h1, h2⟩ := free_prefix '[' _ _ _ _ (short_qualified_not P p m ht.1 ht.2.1 '[' (by simp))
      (short_qualified_not P q n hv.1 hv.2.1 '[' (by simp)) (brackets_head as) (brackets_head bs) h
    obtain ⟨rfl, rfl⟩ := qualified_inj P hu p q m n ht.1 hv.1 ht.2.1 hv.2.1 h1
    match as, bs, ht, hv, hc, hd, h2 with
    | .nil, .nil, _, _, _, _, _ => rfl
    | .nil, .cons _ _, _, _, _, _, h2 => simp [GTys.shortBrackets] at h2
    | .cons _ _, .nil, _, _, _, _, h2 => simp [GTys.shortBrackets] at h2
    | .cons t .nil, .cons u .nil, ht, hv, hc, hd, h2 =>
      have : t.short = u.short := by simpa [GTys.shortBrackets, GTys.shortTail] using h2
      rw [short_chain_inj P hu t u ht.2.2.1 hv.2.2.1 hc hd this]
    | .cons _ (.cons _ _), _, _, _, hc, _, _ => exact absurd hc id
    | _, .cons _ (.cons _ _), _, _, _, hd, _ => exact absurd hd id
  | .ptr _, _, _, _, hc, _, _ => absurd hc id
  | .slice _, _, _, _, hc, _, _ => absurd hc id
  | .map _ _, _, _, _, hc, _, _ => absurd hc id
  | _, .ptr _, _, _, _, hd, _ => absurd hd id
  | _, .slice _, _, _, _, hd, _ => absurd hd id
  | _, .map _ _, _, _, _, hd, _ => absurd hd id

theorem short_tail_inj (P : Pkg → Prop) (hu : ∀ p q, P p → P q → p.last = q.last → p = q) :
    ∀ (ts us : GTys), ts.Over P → us.Over P → ts.Chains → us.Chains → ts.shortTail = us.shortTail → ts = us
  | .nil, .nil, _, _, _, _, _ => rfl
  | .nil, .cons _ _, _, _, _, _, h => by simp [GTys.shortTail] at h
  | .cons _ _, .nil, _, _, _, _, h => by simp [GTys.shortTail] at h
  | .cons t ts, .cons u us, ht, hv, hc, hd, h => by
    simp only [GTys.shortTail, List.cons.injEq, true_and] at h
    obtain ⟨h1, h2⟩ := free_prefix ',' _ _ _ _ (short_chain_no_comma P t ht.1 hc.1) (short_chain_no_comma P u hv.1 hd.1)
      (tail_head ts) (tail_head us) h
    rw [short_chain_inj P hu t u ht.1 hv.1 hc.1 hd.1 h1, short_tail_inj P hu ts us ht.2 hv.2 hc.2 hd.2 h2]

/-- C227 (part): types whose arguments are chains have the same schema only if they are the same. -/
theorem own_schema_partial (P : Pkg → Prop) (hu : ∀ p q, P p → P q → p.last = q.last → p = q) (p q : Pkg) (m n : Str)
    (as bs : GTys) (ht : (GTy.named (some p) m as).Over P) (hv : (GTy.named (some q) n bs).Over P) (hc : as.Chains)
    (hd : bs.Chains) (h : (GTy.named (some p) m as).key = (GTy.named (some q) n bs).key) :
    GTy.named (some p) m as = GTy.named (some q) n bs := by
  rw [name_read_partial P p m as ht hc, name_read_partial P q n bs hv hd] at h
  injection h with h1 h2
  have hpq := hu p q (ht.1 p rfl).1 (hv.1 q rfl).1 h1
  obtain ⟨hmn, hab⟩ := free_prefix '[' m n _ _ (ht.2.1.not '[' (by simp [specials])) (hv.2.1.not '[' (by simp [specials]))
    (brackets_head as) (brackets_head bs) h2
  subst hpq hmn
  have : as = bs := by
    match as, bs, ht, hv, hc, hd, hab with
    | .nil, .nil, _, _, _, _, _ => rfl
    | .nil, .cons _ _, _, _, _, _, hab => simp [GTys.shortBrackets] at hab
    | .cons _ _, .nil, _, _, _, _, hab => simp [GTys.shortBrackets] at hab
    | .cons t ts, .cons u us, ht, hv, hc, hd, hab =>
      have e : t.short ++ ts.shortTail = u.short ++ us.shortTail := by
        simpa [GTys.shortBrackets, ← List.append_assoc] using hab
      have := short_tail_inj P hu (.cons t ts) (.cons u us) ht.2.2 hv.2.2 hc hd (by simp [GTys.shortTail, e])
      exact this
  rw [this]

/-! ## Where it is not so -/

/-- The package of the examples. -/
def shop : Pkg := { dirs := [['x']], last := ['s'] }

/-- A type without arguments. -/
def plain (p : Option Pkg) (n : Char) : GTy := .named p [n] .nil

theorem shop_good : shop.Good := by
  refine ⟨⟨by decide, by decide⟩, ?_⟩
  intro d hd
  simp only [shop, List.mem_singleton] at hd
  subst hd
  exact ⟨by decide, by decide⟩

theorem ident_T : Ident ['T'] := ⟨by decide, by decide⟩

/-- `x/s.T`. -/
def item : GTy := plain (some shop) 'T'

theorem item_over : item.Over (· = shop) :=
  ⟨fun p hp => by cases hp; exact ⟨rfl, shop_good⟩, ident_T, trivial⟩

/-- `x/s.G[t]`. -/
def page (t : GTy) : GTy := .named (some shop) ['G'] (.cons t .nil)

theorem page_over (t : GTy) (h : t.Over (· = shop)) : (page t).Over (· = shop) :=
  ⟨fun p hp => by cases hp; exact ⟨rfl, shop_good⟩, ⟨by decide, by decide⟩, h, trivial⟩

theorem one_package : ∀ p q : Pkg, p = shop → q = shop → p.last = q.last → p = q := fun _ _ a b _ => a.trans b.symm

/-- C227 fails: `G[*T]` has the schema of `G[T]`. -/
theorem own_schema_fails : ¬ OwnSchemaClaim := by
  intro h
  have := h (· = shop) one_package shop shop ['G'] ['G'] (.cons (.ptr item) .nil) (.cons item .nil)
    (page_over (.ptr item) item_over) (page_over item item_over) (by decide +kernel)
  injection this with _ _ h3
  injection h3 with h4
  cases h4

/-- C227 fails: `G[map[string]T]` has the schema of `G[map[int]T]`. -/
theorem map_keys_fails : (page (.map (.named none ['s', 't', 'r', 'i', 'n', 'g'] .nil) item)).key =
    (page (.map (.named none ['i', 'n', 't'] .nil) item)).key := by decide +kernel

/-- C227 fails: nested instances of several arguments are not written as Go writes them: `G[G[T,T]]`. -/
theorem nested_fails : (page (.named (some shop) ['H'] (.cons item (.cons item .nil)))).key =
    (['s'], "G[s.H[s.T], s.T]]".toList) := by decide +kernel

/-- C227 fails: local types of two functions, `T·1` and `T·2` as arguments, have one schema. -/
theorem local_types_fails : (page (.named (some shop) ['T', '·', '1'] .nil)).key =
    (page (.named (some shop) ['T', '·', '2'] .nil)).key := by decide +kernel

/-- `x/s.C[x/s.T,int]`, a case of the theorems. -/
example : (GTy.named (some shop) ['C'] (.cons item (.cons (.named none ['i', 'n', 't'] .nil) .nil))).key =
    (['s'], "C[s.T, int]".toList) := by decide +kernel

example : (GTy.named (some shop) ['C'] (.cons item (.cons (.named none ['i', 'n', 't'] .nil) .nil))).Over (· = shop) :=
  ⟨(fun p hp => by cases hp; exact ⟨rfl, shop_good⟩), ⟨(by decide), (by decide)⟩, item_over,
    ⟨(fun _ hp => nomatch hp), ⟨(by decide), (by decide)⟩, trivial⟩, trivial⟩

example : (GTys.cons item (.cons (.named none ['i', 'n', 't'] .nil) .nil)).Chains := ⟨trivial, trivial, trivial⟩

end Verif.Oas.Name
