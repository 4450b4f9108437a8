import Verif.Oas.Meaning

/-!
# OpenAPI schemas: properties

What a user of the generated document relies on: the schema of a parameter, a body or a result accepts the
values of its Go type and no others (C174); it accepts what the server writes (C175); making the document ends,
whatever the types, and the references in it lead somewhere (C176).
-/
namespace Verif.Oas
open Spec

/-! ## A program for the examples -/

/-- `type Node struct { Base; Name string; Next *Node "json:next,omitempty"; Kids []Node; Tint Color }` with
`type Base struct { ID int8 "json:id" }` and `type Color uint8`. -/
def exampleEnv : Env :=
  [⟨['m', '/', 'a'], ['N'], .struct
      (.embed ['B'] none (.cons ['I'] (some ['i', 'd']) false (.num .int8) .nil)
        (.cons ['N', 'a'] none false .str
          (.cons ['N', 'e'] (some ['n']) true (.pointer (.named 0))
            (.cons ['K'] none false (.slice (.named 0))
              (.cons ['T'] none false (.named 1) .nil)))))⟩,
   ⟨['m', '/', 'b'], ['N'], .num .uint8⟩]

theorem exampleEnv_plain : PlainEnv exampleEnv := by
  refine ⟨?_, ?_, ?_⟩
  · intro d hd
    simp only [exampleEnv, List.mem_cons, List.not_mem_nil, or_false] at hd
    rcases hd with rfl | rfl
    · simp [Plain, PlainFields, exampleEnv, allFields, jsonName, embeddedNames]
    · simp [Plain]
  · intro i j c d hi hj hn hb
    match i, j, hi, hj with
    | 0, 0, _, _ => rfl
    | 1, 1, _, _ => rfl
    | 0, 1, hi, hj => cases hi; cases hj; exact absurd hb (by decide)
    | 1, 0, hi, hj => cases hi; cases hj; exact absurd hb (by decide)
    | _ + 2, _, hi, _ => simp [exampleEnv] at hi
    | _, _ + 2, _, hj => simp [exampleEnv] at hj
  · intro d hd
    simp only [exampleEnv, List.mem_cons, List.not_mem_nil, or_false] at hd
    rcases hd with rfl | rfl <;> simp

theorem exampleEnv_textual : ∀ d ∈ exampleEnv, Textual exampleEnv d.body := by
  intro d hd
  simp only [exampleEnv, List.mem_cons, List.not_mem_nil, or_false] at hd
  rcases hd with rfl | rfl <;> simp [Textual, TextualFields, isByte]

/-- A value of `Node`: `{"id": 5, "Na": "x", "K": [], "T": 255}`. -/
def exampleJson : J :=
  .obj [(['i', 'd'], .int 5), (['N', 'a'], .str ['x']), (['K'], .arr []), (['T'], .int 255)]

theorem exampleJson_of : JsonOf exampleEnv false (.named 0) exampleJson := by
  refine .named 0 _ _ rfl (.struct _ _ ?_ ?_ ?_)
  · decide
  · intro kv hkv f hf e
    simp only [fieldsOf, allFields, jsonName, List.append_eq, List.nil_append, List.cons_append] at hf
    replace hf := (List.mem_filter.1 hf).1
    simp only [List.mem_cons, List.not_mem_nil, or_false] at hkv hf
    rcases hkv with rfl | rfl | rfl | rfl <;> rcases hf with rfl | rfl | rfl | rfl | rfl <;>
      first
      | exact absurd e (by decide)
      | exact .int _ _ (by simp [InRange])
      | exact .str _
      | exact .slice _ _ rfl (by simp)
      | exact .named 1 _ _ rfl (.int _ _ (by simp [InRange]))
  · intro f hf ho
    replace hf := (List.mem_filter.1 hf).1
    simp only [allFields, jsonName, List.mem_cons, List.append_eq, List.nil_append, List.cons_append, List.not_mem_nil,
      or_false] at hf
    rcases hf with rfl | rfl | rfl | rfl | rfl
    · exact ⟨.int 5, by simp⟩
    · exact ⟨.str ['x'], by simp⟩
    · cases ho
    · exact ⟨.arr [], by simp⟩
    · exact ⟨.int 255, by simp⟩

/-! ## C174: schemas mean their types -/

/-- In a program whose types have different names as the document sees them, every schema of a document accepts
exactly the values of its type. -/
theorem schema_means_type_partial {env : Env} (E : PlainEnv env) {ts : List Ty} (h : ∀ t ∈ ts, Plain env t) :
    Means env ts := by
  intro n ss defs hd i t s ht hs j
  obtain ⟨C, -, rfl, k⟩ := document_sound E h (complete_noSchemas env) hd
  rw [List.getElem?_map, ht] at hs
  cases hs
  have hm := List.mem_of_getElem? ht
  exact ⟨fun v => conforms_of_valid E C v t rfl (h t hm) (k t hm), fun c => valid_of_conforms E C c (h t hm) (k t hm)⟩

example : ∃ ss defs, document exampleEnv 3 noSchemas [.named 0, .map .str (.named 1)] = some (ss, defs) ∧
    ss.length = 2 ∧ ¬ Valid defs (.ref (['a'], ['N'])) (.obj []) ∧ Valid defs (.ref (['a'], ['N'])) exampleJson := by
  have P : ∀ t ∈ [Ty.named 0, .map .str (.named 1)], Plain exampleEnv t := by
    intro t ht; simp at ht; rcases ht with rfl | rfl <;> simp [Plain, exampleEnv]
  have M := schema_means_type_partial exampleEnv_plain P
  refine ⟨_, _, rfl, rfl, ?_, ?_⟩
  · intro h
    replace h := (M 3 _ _ rfl 0 _ _ rfl rfl _).1 h
    cases h with
    | named id d j hd h =>
      cases hd
      cases h with
      | struct fs kvs _ hr =>
        obtain ⟨v, hv⟩ := hr ⟨['N', 'a'], .str, false, 0⟩ (by simp [fieldsOf, allFields, jsonName]) rfl (by rintro ⟨⟩)
        simp at hv
  · refine (M 3 _ _ rfl 0 _ _ rfl rfl _).2 ?_
    exact conforms_of_json exampleEnv_plain exampleEnv_textual exampleJson_of (P _ (by simp)) (by simp [Textual])

/-- Two types with the same name, in packages whose paths end with the same element, share one schema. -/
theorem schema_means_type_fails_packages : ¬ ∀ (c d : Decl), c.pkg ≠ d.pkg → Means [c, d] [.named 0, .named 1] := by
  intro h
  have := (h ⟨['a', '/', 'x'], ['T'], .str⟩ ⟨['b', '/', 'x'], ['T'], .bool⟩ (by decide) 3 _ _ rfl 1 _ _ rfl rfl (.str [])).1
    (.ref _ _ _ rfl (.str _))
  cases this with
  | named id d j hd h => cases hd; cases h

/-- A field of an embedded struct takes the place of a field of the struct itself. -/
theorem schema_means_type_fails_embedded : ¬ ∀ (fs : Fields), Means [] [.struct fs] := by
  intro h
  have := (h (.cons ['A'] none false .str (.embed ['B'] none (.cons ['A'] none false .bool .nil) .nil))
    1 _ _ rfl 0 _ _ rfl rfl (.obj [(['A'], .str [])])).2 (.struct _ _ (by
      intro kv hkv f hf e
      replace hf : f ∈ [(⟨['A'], .str, false, 0⟩ : Field)] := hf
      simp at hkv hf; subst hkv; subst hf; exact .str _) (by
      intro f hf _ _
      replace hf : f ∈ [(⟨['A'], .str, false, 0⟩ : Field)] := hf
      simp at hf; subst hf; exact ⟨_, List.mem_singleton_self _⟩))
  cases this with
  | obj ps req kvs hp _ =>
    have := hp _ (List.mem_singleton_self _) .bool rfl
    cases this

/-- An embedded struct with a name in its tag is not a property of that name. -/
theorem schema_means_type_fails_tagged : ¬ ∀ (fs : Fields), ((allFields 0 fs).map Field.name).Nodup →
    Means [] [.struct fs] := by
  intro h
  have := (h (.embed ['B'] (some ['b']) (.cons ['A'] none false .str .nil) .nil) (by simp [allFields])
    1 _ _ rfl 0 _ _ rfl rfl (.obj [(['A'], .str [])])).1 (.obj _ _ _ (by
      intro kv hkv s hs
      simp at hkv; subst hkv; cases hs; exact .str _) (by
      intro n hn; simp [ownNames, isRequired, boolOrPointer, propName] at hn; subst hn; exact ⟨_, List.mem_singleton_self _⟩))
  cases this with
  | struct fs kvs _ hr =>
    obtain ⟨v, hv⟩ := hr ⟨['b'], .struct (.cons ['A'] none false .str .nil), false, 0⟩
      (by simp [fieldsOf, allFields]) rfl (by rintro ⟨⟩)
    simp at hv

/-- A declared pointer type that is used twice is described the second time by an empty schema. -/
theorem schema_means_type_fails_pointer : ¬ ∀ (d : Decl), Means [d] [.named 0, .named 0] := by
  intro h
  have := (h ⟨['a'], ['P'], .pointer .str⟩ 2 _ _ rfl 1 _ _ rfl rfl .null).1 (.ref _ _ _ rfl (.any _))
  cases this with
  | named id d j hd h => cases hd; cases h with | pointer t j h => cases h

/-! ## C175: schemas accept what is written -/

/-- A document accepts what the server writes for a value without nil pointers, slices and maps, of a type
without slices of bytes and with maps whose keys are strings. -/
theorem schema_accepts_encoded_partial {env : Env} (E : PlainEnv env) (T : ∀ d ∈ env, Textual env d.body) {ts : List Ty}
    (h : ∀ t ∈ ts, Plain env t ∧ Textual env t) : Accepts env false ts := by
  intro n ss defs hd i t s ht hs j hj
  have hm := List.mem_of_getElem? ht
  exact (schema_means_type_partial E (fun t ht => (h t ht).1) n ss defs hd i t s ht hs j).2
    (conforms_of_json E T hj (h t hm).1 (h t hm).2)

example : ∃ ss defs, document exampleEnv 3 noSchemas [.named 0, .map .str (.named 1)] = some (ss, defs) ∧
    Valid defs (.ref (['a'], ['N'])) exampleJson :=
  ⟨_, _, rfl, schema_accepts_encoded_partial exampleEnv_plain exampleEnv_textual (ts := [.named 0, .map .str (.named 1)])
    (by
      intro t ht; simp at ht
      rcases ht with rfl | rfl
      · simp [Plain, Textual, exampleEnv]
      · refine ⟨by simp [Plain, exampleEnv], ?_⟩
        simp only [Textual, and_true]
        intro s hs; cases hs; exact .str _) 3 _ _ rfl 0 _ _ rfl rfl _ exampleJson_of⟩

/-- A nil slice, a nil map and a nil pointer are written as `null`, which their schemas refuse. -/
theorem schema_accepts_encoded_fails_nil (t : Ty) (ht : t = .slice .str ∨ t = .map .str .str ∨ t = .pointer .str) :
    ¬ Accepts [] true [t] := by
  intro h
  rcases ht with rfl | rfl | rfl
  · cases h 1 _ _ rfl 0 _ _ rfl rfl .null (.nilSlice _ rfl)
  · cases h 1 _ _ rfl 0 _ _ rfl rfl .null (.nilMap _ _ rfl)
  · cases h 1 _ _ rfl 0 _ _ rfl rfl .null (.nilPointer _ rfl)

/-- Bytes are written as a string, and their schema is that of an array of numbers. -/
theorem schema_accepts_encoded_fails_bytes : ¬ Accepts [] false [.slice (.num .uint8)] := by
  intro h
  cases h 1 _ _ rfl 0 _ _ rfl rfl (.str []) (.bytes _ _ rfl)

/-- The keys of a map with integer keys are written as strings, which the schema for its keys refuses: only the
empty map is accepted. -/
theorem schema_accepts_encoded_fails_keys : ¬ Accepts [] false [.map (.num .int) .str] := by
  intro h
  cases h 1 _ _ rfl 0 _ _ rfl rfl (.obj [((toString 0).toList, .str [])])
    (.map _ _ _ (by intro kv hkv; simp only [List.mem_singleton] at hkv; subst hkv; exact .num .int 0 rfl (by simp [InRange]))
      (by intro kv hkv; simp only [List.mem_singleton] at hkv; subst hkv; exact .str _)) with
  | map names values kvs hk _ => cases hk _ (List.mem_singleton_self _)

/-! ## C176: documents end, references resolve -/

/-- Making the document ends, for recursive types as well: no more types are described at the same time than are
declared. -/
theorem document_ends {env : Env} (D : Declared env) : ∀ (ts : List Ty) (r : Reg) (n : Nat),
    (∀ t ∈ ts, Below env.length t) → env.length < n → (document env n r ts).isSome = true
  | [], r, n, _, _ => rfl
  | t :: ts, r, n, h, hn => by
    have hm : ∀ r, missing env r ≤ env.length := fun r => List.length_filter_le _ _
    obtain ⟨⟨s, r1⟩, h1⟩ := Option.isSome_iff_exists.1
      (with_total (env := env) (visit_grows env n) (m := env.length) (b := env.length)
        (fun r id h1 h2 => visit_total D n r id (by omega) h2) t r (hm r) (h t (by simp)))
    obtain ⟨⟨ss, r2⟩, h2⟩ := Option.isSome_iff_exists.1 (document_ends D ts r1 n (fun t ht => h t (by simp [ht])) hn)
    simp [document, schemaFor, h1, h2]

example : Declared exampleEnv ∧ Declared [⟨['a'], ['P'], .pointer (.named 0)⟩] := by
  constructor
  · intro d hd
    simp only [exampleEnv, List.mem_cons, List.not_mem_nil, or_false] at hd
    rcases hd with rfl | rfl <;> simp [Below, BelowFields, exampleEnv]
  · intro d hd; simp at hd; subst hd; simp [Below]

/-- Every reference in the schemas of a document, and in the schemas it registers, is to a schema it registers. -/
theorem references_resolve {env : Env} {n : Nat} {ts : List Ty} {ss defs}
    (h : document env n noSchemas ts = some (ss, defs)) :
    (∀ s ∈ ss, ∀ k ∈ refs s, ∃ s', defs k = some s') ∧
      ∀ k s, defs k = some s → ∀ k' ∈ refs s, ∃ s', defs k' = some s' := by
  suffices H : ∀ ts r ss defs, Closed r → document env n r ts = some (ss, defs) →
      Closed defs ∧ Grows r defs ∧ ∀ s ∈ ss, ∀ k ∈ refs s, (defs k).isSome = true by
    obtain ⟨a, -, b⟩ := H ts _ _ _ (by intro k s h; simp [noSchemas] at h) h
    exact ⟨fun s hs k hk => Option.isSome_iff_exists.1 (b s hs k hk),
      fun k s hs k' hk => Option.isSome_iff_exists.1 (a k s hs k' hk)⟩
  intro ts
  induction ts with
  | nil => intro r ss defs c h; simp [document] at h; obtain ⟨rfl, rfl⟩ := h; exact ⟨c, fun _ h => h, by simp⟩
  | cons t ts ih =>
    intro r ss defs c h
    simp only [document, schemaFor] at h
    split at h
    · rename_i s1 r1 h1
      split at h
      · rename_i ss2 r2 h2
        simp at h; obtain ⟨rfl, rfl⟩ := h
        obtain ⟨c1, f1⟩ := with_closed (visit_grows env n) (visit_closed env n) _ _ _ _ c h1
        obtain ⟨c2, g2, f2⟩ := ih _ _ _ c1 h2
        refine ⟨c2, fun k x => g2 k (with_rel (visit_grows env n) _ _ _ _ h1 k x), ?_⟩
        intro s hs k hk
        rcases List.mem_cons.1 hs with rfl | hs
        · exact g2 k (f1 k hk)
        · exact f2 s hs k hk
      · cases h
    · cases h

example : ∃ defs, document exampleEnv 3 noSchemas [.named 0] = some ([.ref (['a'], ['N'])], defs) ∧
    ∃ s, defs (['b'], ['N']) = some s := ⟨_, rfl, _, rfl⟩

end Verif.Oas
