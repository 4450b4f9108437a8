import Verif.Oas.FormModel
import Verif.Oas.Props
/-!
# C220: the form of an operation asks for what its body takes
-/
namespace Verif.Oas.Form
open Verif.Oas Spec

/-! ## Specification -/

/-- The programs for which forms are right: as for documents (`PlainEnv`), and no two types have the same name, whatever
their packages. -/
structure Distinct (env : Env) : Prop where
  bodies : ∀ d ∈ env, Plain env d.body
  names : ∀ (i j : Nat) (c d : Decl), env[i]? = some c → env[j]? = some d → c.name = d.name → i = j
  underlying : ∀ d ∈ env, (∀ t, d.body ≠ .pointer t) ∧ ∀ i, d.body ≠ .named i

/-- The bodies an operation takes: an object whose members of the arguments' names are values of their types, if the body
is made of several arguments; a value of the argument's type otherwise. -/
inductive Takes (env : Env) (op : Op) : J → Prop
  | object (kvs : List (Name × J)) (hm : op.mapped = true)
      (h : ∀ p ∈ op.params, p.inBody = true → ∀ v, (p.name, v) ∈ kvs → Conforms env p.ty v) : Takes env op (.obj kvs)
  | value (j : J) (p : Param) (hm : op.mapped = false) (hp : p ∈ op.params) (hb : p.inBody = true)
      (h : Conforms env p.ty j) : Takes env op j

/-! ## Lemmas -/

theorem flat_get (env : Env) (i : Nat) : (flat env)[i]? = (env[i]?).map fun d => { d with pkg := [] } := by
  simp [flat]

theorem flat_length (env : Env) : (flat env).length = env.length := by simp [flat]

mutual
theorem plain_flat (env : Env) : ∀ t, Plain (flat env) t ↔ Plain env t
  | .bool => by simp [Plain]
  | .num _ => by simp [Plain]
  | .str => by simp [Plain]
  | .any => by simp [Plain]
  | .slice t => by simp only [Plain, plain_flat env t]
  | .array n t => by simp only [Plain, plain_flat env t]
  | .map key t => by simp only [Plain, plain_flat env key, plain_flat env t]
  | .pointer t => by simp only [Plain, plain_flat env t]
  | .struct fs => by simp only [Plain, plainFields_flat env fs]
  | .named id => by simp only [Plain, flat_length]
theorem plainFields_flat (env : Env) : ∀ fs, PlainFields (flat env) fs ↔ PlainFields env fs
  | .nil => by simp [PlainFields]
  | .cons _ _ _ t rest => by simp only [PlainFields, plain_flat env t, plainFields_flat env rest]
  | .embed _ tag inner rest => by simp only [PlainFields, plainFields_flat env inner, plainFields_flat env rest]
end

/-- Two programs that declare the same types, perhaps in other packages. -/
def Alike (e f : Env) : Prop := ∀ (i : Nat) (d : Decl), e[i]? = some d → ∃ d' : Decl, f[i]? = some d' ∧ d'.body = d.body

theorem alike_flat (env : Env) : Alike env (flat env) := by
  intro i d h
  exact ⟨{ d with pkg := [] }, by rw [flat_get, h]; rfl, rfl⟩

theorem flat_alike (env : Env) : Alike (flat env) env := by
  intro i d h
  rw [flat_get, Option.map_eq_some_iff] at h
  obtain ⟨a, ha, rfl⟩ := h
  exact ⟨a, ha, rfl⟩

theorem optional_alike {e f : Env} (h : Alike e f) {t : Ty} (o : Optional e t) : Optional f t := by
  induction o with
  | bool => exact .bool
  | pointer t => exact .pointer t
  | named id d hd _ ih =>
    obtain ⟨d', hd', hb⟩ := h id d hd
    exact .named id d' hd' (hb ▸ ih)

theorem conforms_alike {e f : Env} (h : Alike e f) (g : Alike f e) {t : Ty} {j : J} (c : Conforms e t j) :
    Conforms f t j := by
  induction c with
  | any j => exact .any j
  | bool b => exact .bool b
  | int k i p => exact .int k i p
  | frac k n p => exact .frac k n p
  | str s => exact .str s
  | slice t js _ ih => exact .slice t js ih
  | array n t js hl _ ih => exact .array n t js hl ih
  | map key t kvs _ _ ih1 ih2 => exact .map key t kvs ih1 ih2
  | pointer t j _ ih => exact .pointer t j ih
  | struct fs kvs _ hr ih =>
    exact .struct fs kvs ih fun x hx ho hn => hr x hx ho fun o => hn (optional_alike h o)
  | named id d j hd _ ih =>
    obtain ⟨d', hd', hb⟩ := h id d hd
    exact .named id d' j hd' (hb ▸ ih)

theorem conforms_flat (env : Env) (t : Ty) (j : J) : Conforms (flat env) t j ↔ Conforms env t j :=
  ⟨conforms_alike (flat_alike env) (alike_flat env), conforms_alike (alike_flat env) (flat_alike env)⟩

theorem plainEnv_flat {env : Env} (D : Distinct env) : PlainEnv (flat env) := by
  refine ⟨?_, ?_, ?_⟩
  · intro d hd
    simp only [flat, List.mem_map] at hd
    obtain ⟨a, ha, rfl⟩ := hd
    exact (plain_flat env _).mpr (D.bodies a ha)
  · intro i j c d hc hd hn _
    rw [flat_get, Option.map_eq_some_iff] at hc hd
    obtain ⟨a, ha, rfl⟩ := hc
    obtain ⟨b, hb, rfl⟩ := hd
    exact D.names i j a b ha hb hn
  · intro d hd
    simp only [flat, List.mem_map] at hd
    obtain ⟨a, ha, rfl⟩ := hd
    exact D.underlying a ha

theorem schemaWith_means {env : Env} (E : PlainEnv env) (n : Nat) (t : Ty) (s : Schema) (defs : Reg)
    (ht : Plain env t) (h : schemaWith env (visit env n) t noSchemas = some (s, defs)) (j : J) :
    Valid defs s j ↔ Conforms env t j := by
  have hd : document env n noSchemas [t] = some ([s], defs) := by
    simp only [document, schemaFor, h]
  exact schema_means_type_partial E (ts := [t]) (by simpa using ht) n _ _ hd 0 t s rfl rfl j

/-! ## C220 -/

/-- The schema of an operation whose body is one argument, not a pointer, accepts exactly the values of its type. -/
theorem whole_means {env : Env} (D : Distinct env) (n : Nat) (t : Ty) (s : Schema) (defs : Reg)
    (ht : Plain env t) (hp : ∀ u, t ≠ .pointer u) (h : whole env n t = some (s, defs)) (j : J) :
    Valid defs s j ↔ Conforms env t j := by
  have E := plainEnv_flat D
  have direct : schemaWith (flat env) (visit (flat env) n) t noSchemas = some (s, defs) →
      (Valid defs s j ↔ Conforms env t j) := fun h => by
    rw [schemaWith_means E n t s defs ((plain_flat env t).mpr ht) h j, conforms_flat]
  cases t with
  | pointer u => exact absurd rfl (hp u)
  | named id =>
    simp only [whole] at h
    split at h
    · cases h
    · rename_i d hd
      have hdm := List.mem_of_getElem? hd
      split at h
      · cases h
      · rename_i s' defs' hs
        have hnp : isPointer d.body = false := by
          cases hb : d.body with
          | pointer u => exact absurd hb ((E.underlying d hdm).1 u)
          | _ => rfl
        rw [hnp] at h
        simp only [Bool.false_eq_true, if_false, Option.some.injEq, Prod.mk.injEq] at h
        obtain ⟨rfl, rfl⟩ := h
        rw [schemaWith_means E n d.body _ _ (E.bodies d hdm) hs j, ← conforms_flat env (.named id)]
        constructor
        · exact fun c => .named id d j hd c
        · intro c
          cases c with
          | named _ d' _ hd' c =>
            rw [hd] at hd'
            cases hd'
            exact c
  | _ => exact direct h

theorem propsOf_find : ∀ (ns : List Name) (ss : List Schema) (k : Name) (s : Schema), ns.length = ss.length → ns.Nodup →
    ((propsOf ns ss).find k = some s ↔ ∃ i : Nat, ns[i]? = some k ∧ ss[i]? = some s)
  | [], [], k, s, _, _ => by simp [propsOf, Props.find]
  | [], _ :: _, _, _, h, _ => by simp at h
  | _ :: _, [], _, _, h, _ => by simp at h
  | m :: ns, x :: ss, k, s, hl, hn => by
    have ih := propsOf_find ns ss k s (by simpa using hl) (List.nodup_cons.1 hn).2
    have hnot := (List.nodup_cons.1 hn).1
    simp only [propsOf, Props.find]
    cases hf : (propsOf ns ss).find k with
    | some s' =>
      have ih' := propsOf_find ns ss k s' (by simpa using hl) (List.nodup_cons.1 hn).2
      obtain ⟨i0, hi0, hs0⟩ := ih'.mp hf
      have hmk : m ≠ k := by
        rintro rfl
        exact hnot (List.mem_of_getElem? hi0)
      rw [hf] at ih
      simp only
      rw [ih]
      constructor
      · rintro ⟨i, a, b⟩
        exact ⟨i + 1, by simpa using a, by simpa using b⟩
      · rintro ⟨i, a, b⟩
        cases i with
        | zero => simp at a; exact absurd a hmk
        | succ i => exact ⟨i, by simpa using a, by simpa using b⟩
    | none =>
      rw [hf] at ih
      simp only
      constructor
      · intro h
        split at h
        · rename_i hmk
          exact ⟨0, by simp [hmk], by simpa using h⟩
        · cases h
      · rintro ⟨i, a, b⟩
        cases i with
        | zero =>
          simp at a b
          simp [a, b]
        | succ i =>
          have := ih.mpr ⟨i, by simpa using a, by simpa using b⟩
          cases this

theorem document_length {env : Env} {n : Nat} : ∀ {r : Reg} {ts : List Ty} {ss : List Schema} {defs : Reg},
    document env n r ts = some (ss, defs) → ss.length = ts.length
  | r, [], ss, defs, h => by
    simp [document] at h
    simp [← h.1]
  | r, t :: ts, ss, defs, h => by
    simp only [document] at h
    split at h
    · split at h
      · rename_i h2
        simp only [Option.some.injEq, Prod.mk.injEq] at h
        obtain ⟨rfl, _⟩ := h
        simp [document_length h2]
      · cases h
    · cases h

/-- The schema the form asks for accepts exactly the bodies its operation takes, for operations with a body. (`_partial`:
for types of different names and a body that is not a pointer.) -/
theorem form_means_partial {env : Env} (D : Distinct env) (n : Nat) (ops : Ops) (page : Bool) (m : Name) (op : Op)
    (s : Schema) (defs : Reg) (hm : m ≠ []) (ho : ops m = some op)
    (hplain : ∀ p ∈ op.params, p.inBody = true → Plain env p.ty)
    (hnames : ((op.params.filter (·.inBody)).map (·.name)).Nodup)
    (hone : op.mapped = false → ∃ p, op.params.filter (·.inBody) = [p] ∧ ∀ u, p.ty ≠ .pointer u)
    (h : serve env n ops true page m = .schema (some (s, defs))) (j : J) : Valid defs s j ↔ Takes env op j := by
  simp only [serve, if_true, hm, if_false, ho, Option.getD_some, Answer.schema.injEq] at h
  unfold schemaOf at h
  have hmem : ∀ p, p ∈ op.body ↔ p ∈ op.params ∧ p.inBody = true := by simp [Op.body]
  cases hmap : op.mapped with
  | false =>
    obtain ⟨p, hp, hnp⟩ := hone hmap
    have hb : op.body = [p] := hp
    have hpm := (hmem p).mp (by rw [hb]; simp)
    rw [hmap, hb] at h
    simp only [Bool.false_eq_true, if_false] at h
    rw [whole_means D n p.ty s defs (hplain p hpm.1 hpm.2) hnp h j]
    constructor
    · exact fun c => .value j p hmap hpm.1 hpm.2 c
    · intro c
      cases c with
      | object kvs h1 => rw [hmap] at h1; cases h1
      | value _ q _ hq hqb c =>
        have : q ∈ op.body := (hmem q).mpr ⟨hq, hqb⟩
        rw [hb] at this
        simp only [List.mem_singleton] at this
        subst this
        exact c
  | true =>
    rw [hmap] at h
    simp only [if_true] at h
    split at h
    · rename_i ss defs' hd
      simp only [Option.some.injEq, Prod.mk.injEq] at h
      obtain ⟨rfl, rfl⟩ := h
      have E := plainEnv_flat D
      have hp : ∀ t ∈ op.body.map (·.ty), Plain (flat env) t := by
        intro t ht
        obtain ⟨p, hp, rfl⟩ := List.mem_map.1 ht
        have := (hmem p).mp hp
        exact (plain_flat env _).mpr (hplain p this.1 this.2)
      have M := schema_means_type_partial E hp n ss defs' hd
      have hl : (op.body.map (·.name)).length = ss.length := by
        rw [document_length hd]; simp
      have hf := fun k s => propsOf_find (op.body.map (·.name)) ss k s hl hnames
      constructor
      · intro v
        cases v with
        | obj _ _ kvs hv _ =>
          refine .object kvs hmap ?_
          intro p hpm hpb v hkv
          obtain ⟨i, hi⟩ := List.getElem?_of_mem ((hmem p).mpr ⟨hpm, hpb⟩)
          have hi2 : i < ss.length := by
            rw [← hl, List.length_map]
            exact (List.getElem?_eq_some_iff.1 hi).1
          have hs : ss[i]? = some ss[i] := List.getElem?_eq_getElem hi2
          have := hv (p.name, v) hkv ss[i] ((hf p.name ss[i]).mpr ⟨i, by simp [hi], hs⟩)
          exact (conforms_flat env _ _).mp ((M i p.ty ss[i] (by simp [hi]) hs v).mp this)
      · intro c
        cases c with
        | value _ _ h1 => rw [hmap] at h1; cases h1
        | object kvs _ hc =>
          refine .obj _ _ kvs ?_ (by simp)
          rintro ⟨k, v⟩ hkv s hs
          obtain ⟨i, hi, his⟩ := (hf k s).mp hs
          rw [List.getElem?_map, Option.map_eq_some_iff] at hi
          obtain ⟨p, hi, rfl⟩ := hi
          have hpm := (hmem p).mp (List.mem_of_getElem? hi)
          refine (M i p.ty s (by simp [hi]) his v).mpr ((conforms_flat env _ _).mpr ?_)
          exact hc p hpm.1 hpm.2 v hkv
    · cases h

/-- `func(id int, name string, tint Color)` with the last two in the body: the hypotheses hold and there is a form. -/
def exampleOp : Op := ⟨[⟨['i'], .num .int, false⟩, ⟨['n'], .str, true⟩, ⟨['t'], .named 0, true⟩], true⟩

example : Distinct [⟨['x'], ['C'], .num .uint8⟩] ∧ exampleOp.params.length = 3 ∧
    (∀ p ∈ exampleOp.params, p.inBody = true → Plain [⟨['x'], ['C'], .num .uint8⟩] p.ty) ∧
    ((exampleOp.params.filter (·.inBody)).map (·.name)).Nodup ∧
    ∃ s defs, serve [⟨['x'], ['C'], .num .uint8⟩] 2 (fun _ => some exampleOp) true false ['P'] = .schema (some (s, defs)) := by
  refine ⟨⟨?_, ?_, ?_⟩, rfl, ?_, by decide, _, _, rfl⟩
  · simp [Plain]
  · intro i j c d hi hj _
    match i, j, hi, hj with
    | 0, 0, _, _ => rfl
    | _ + 1, _, hi, _ => simp at hi
    | _, _ + 1, _, hj => simp at hj
  · simp
  · simp [exampleOp, Plain]

/-- Two types of one name, in packages of different names, are one to the form: it refuses a value of the second. -/
theorem form_names_fails : ¬ ∀ (c d : Decl), base c.pkg ≠ base d.pkg →
    ∀ s defs, schemaOf [c, d] 2 ⟨[⟨['a'], .named 0, true⟩, ⟨['b'], .named 1, true⟩], true⟩ = some (s, defs) →
      (Valid defs s (.obj [(['b'], .bool true)]) ↔ Conforms [c, d] (.named 1) (.bool true)) := by
  intro h
  have := (h ⟨['x'], ['T'], .str⟩ ⟨['y'], ['T'], .bool⟩ (by decide) _ _ rfl).2
    (.named 1 _ _ rfl (.bool true))
  cases this with
  | obj ps req kvs hv _ =>
    have := hv (['b'], .bool true) (by simp) _ rfl
    cases this with
    | ref k s j hk hv =>
      cases hk
      cases hv

/-- The form of a body that is a pointer to a declared type refuses everything: what it refers to is not there. -/
theorem form_pointer_fails (d : Decl) (hb : isPointer d.body = false) (n : Nat) (s : Schema) (defs : Reg)
    (h : whole [d] n (.pointer (.named 0)) = some (s, defs)) (j : J) : ¬ Valid defs s j := by
  simp only [whole, schemaWith] at h
  split at h
  · cases h
  · rename_i s' r' hv
    simp only [Option.some.injEq, Prod.mk.injEq] at h
    obtain ⟨rfl, rfl⟩ := h
    cases n with
    | zero => simp [visit] at hv
    | succ n =>
      simp only [visit, flat, List.map_cons, List.map_nil, List.getElem?_cons_zero, noSchemas, Option.isSome_none,
        Bool.false_eq_true, if_false] at hv
      split at hv
      · cases hv
      · rw [hb] at hv
        simp only [Bool.false_eq_true, if_false, Option.some.injEq, Prod.mk.injEq] at hv
        obtain ⟨rfl, _⟩ := hv
        intro v
        cases v with
        | ref k s j hk _ => simp [noSchemas] at hk

example : ∃ s defs, whole [⟨['x'], ['T'], .str⟩] 2 (.pointer (.named 0)) = some (s, defs) := ⟨_, _, rfl⟩

/-- The page has a tab for exactly the operations of GET, POST, PUT and DELETE, in that order. -/
theorem form_tabs (env : Env) (n : Nat) (ops : Ops) (m : Name) :
    ∃ ts, serve env n ops false true m = .page ts ∧
      ts.Sublist ["GET".toList, "POST".toList, "PUT".toList, "DELETE".toList] ∧
      ∀ x, x ∈ ts ↔ x ∈ ["GET".toList, "POST".toList, "PUT".toList, "DELETE".toList] ∧ ∃ op, ops x = some op := by
  have ho : order = ["GET".toList, "POST".toList, "PUT".toList, "DELETE".toList] := by decide +kernel
  refine ⟨tabs ops, rfl, ?_, ?_⟩
  · rw [← ho]
    exact List.filter_sublist
  · intro x
    rw [← ho]
    simp [tabs, Option.isSome_iff_exists]

/-- An operation of PATCH has no tab. -/
theorem form_tabs_fails (env : Env) (n : Nat) (ops : Ops) (m : Name) (ts : List Name)
    (h : serve env n ops false true m = .page ts) : "PATCH".toList ∉ ts := by
  obtain ⟨ts', h', -, hm⟩ := form_tabs env n ops m
  rw [h] at h'
  cases h'
  rw [hm]
  rintro ⟨h, -⟩
  revert h
  decide +kernel

/-- The schema of an operation that does not exist accepts everything. -/
theorem form_unknown (env : Env) (n : Nat) (ops : Ops) (page : Bool) (m : Name) (hm : m ≠ []) (ho : ops m = none) :
    ∃ s defs, serve env n ops true page m = .schema (some (s, defs)) ∧ ∀ j, Valid defs s j := by
  refine ⟨.any, noSchemas, ?_, fun j => .any j⟩
  simp [serve, hm, ho, noOp, schemaOf, Op.body]

end Verif.Oas.Form
