import Verif.Xyz.TaggedModel
import Verif.Xyz.SwitchProps
/-!
# C27, C67, C69: tagged unions
-/
namespace Verif.Xyz

/-! ## C27: reading a case -/

/-- The compiler lets this value be stored as a case of that type: the value itself, or, when
the case is an interface, anything, nil included. -/
def Typed : Option Ty → Option Value → Prop
  | some .iface, _ => True
  | some t, some v => v.ty = t ∧ v.img.length = t.size
  | _, _ => False

/-- A program assigns to one variable, again and again, `v = case.As(value)`; where that panics
the variable keeps what it had. -/
def runStores (st : Storage) (accs : List Acc) (v : Var) : List (Nat × Option Value) → Var
  | [] => v
  | (i, val) :: rest =>
    match (accs[i]?).bind (fun acc => caseAs st acc val) with
    | some v' => runStores st accs v' rest
    | none => runStores st accs v rest

/-- C27 in full: whatever was assigned, reading a case gives the value assigned last if it was
of that case, and panics otherwise. -/
def ReadClaim : Prop :=
  ∀ (st : Storage) (cases : List (Option Ty × Option Nat)) (accs : List Acc)
    (stores : List (Nat × Option Value)) (j : Nat) (acc : Acc),
    values st cases = some accs → accs[j]? = some acc →
    (∀ s ∈ stores, ∃ c, cases[s.1]? = some c ∧ Typed c.1 s.2) →
    caseGet acc (runStores st accs (zeroVar st) stores) =
      match stores.getLast? with
      | some (i, val) => if i = j then val else none
      | none => none

theorem accessorsFrom_get (st : Storage) (cases : List (Option Ty × Option Nat)) : ∀ (b i : Nat),
    (accessorsFrom st b cases)[i]? = (cases[i]?).map (fun c =>
      { idx := b + i, enum := c.2.getD (b + i), safe := safeFor st c.1, rtyp := c.1 }) := by
  induction cases with
  | nil => intro b i; simp [accessorsFrom]
  | cons c cs ih =>
    intro b i
    obtain ⟨t, tag⟩ := c
    cases i with
    | zero => simp [accessorsFrom]
    | succ i =>
      simp only [accessorsFrom, List.getElem?_cons_succ, ih]
      have e : b + 1 + i = b + (i + 1) := by omega
      rw [e]

/-- The case at a position of an accepted declaration. -/
theorem values_get {st : Storage} {cases : List (Option Ty × Option Nat)} {accs : List Acc}
    (h : values st cases = some accs) {i : Nat} {acc : Acc} (ha : accs[i]? = some acc) :
    ∃ c, cases[i]? = some c ∧ acc.idx = i ∧ acc.safe = true ∧ acc.rtyp = c.1 ∧ safeFor st c.1 = true := by
  unfold values at h
  simp only at h
  split at h
  · next hall =>
    injection h with h; subst h
    have hs := List.all_eq_true.mp hall acc (List.mem_of_getElem? ha)
    rw [accessorsFrom_get] at ha
    obtain ⟨c, hc, e⟩ := Option.map_eq_some_iff.mp ha
    subst e
    exact ⟨c, hc, by simp, hs, rfl, hs⟩
  · cases h

theorem values_get' {st : Storage} {cases : List (Option Ty × Option Nat)} {accs : List Acc}
    (h : values st cases = some accs) {i : Nat} {c : Option Ty × Option Nat} (hc : cases[i]? = some c) :
    ∃ acc, accs[i]? = some acc ∧ acc.idx = i ∧ acc.safe = true ∧ acc.rtyp = c.1 ∧ safeFor st c.1 = true := by
  have hl : accs.length = cases.length := by
    unfold values at h
    simp only at h
    split at h
    · injection h with h; subst h
      have : ∀ (b : Nat) (cs : List (Option Ty × Option Nat)), (accessorsFrom st b cs).length = cs.length := by
        intro b cs
        induction cs generalizing b with
        | nil => rfl
        | cons c cs ih => obtain ⟨t, tag⟩ := c; simp [accessorsFrom, ih]
      exact this _ _
    · cases h
  have hi : i < accs.length := by rw [hl]; exact (List.getElem?_eq_some_iff.mp hc).1
  obtain ⟨c', h1, h2⟩ := values_get h (List.getElem?_eq_getElem hi)
  rw [hc] at h1; injection h1 with h1; subst h1
  exact ⟨_, List.getElem?_eq_getElem hi, h2⟩

/-- Storages that keep the value of a case. -/
def Keeps : Storage → Option Ty → Prop
  | .iface, _ => True
  | .ptr, some .iface => False
  | .ptr, _ => True
  | .array _, _ => True
  | _, _ => False

theorem safeFor_array {t ty : Ty} (h : safeFor (.array t) (some ty) = true) :
    ty.size ≤ t.size ∧ t.hasPointers = false ∧ ty.hasPointers = false := by
  simp [safeFor, Storage.size, Storage.hasPointers] at h
  exact ⟨of_decide_eq_true h.1.1, h.1.2, h.2⟩

/-- One store and one read. -/
theorem store_read {st : Storage} {acc : Acc} {val : Value} {t : Ty} (hs : acc.safe = true)
    (hr : acc.rtyp = some t) (hsafe : safeFor st (some t) = true) (hk : Keeps st (some t))
    (ht : Typed (some t) (some val)) :
    ∃ v, caseAs st acc (some val) = some v ∧ v.tag = some acc.idx ∧ caseGet acc v = some val := by
  by_cases hi : t = .iface
  · subst hi
    match st with
    | .iface =>
      refine ⟨⟨some acc.idx, .any (some val)⟩, ?_, rfl, ?_⟩
      · simp [caseAs, accAs, hs, Storage.isIface, storeRam]
      · simp [caseGet, accGet, hs, hr, loadRam]
    | .ptr => exact hk.elim
    | .slice => exact hk.elim
    | .struct _ => exact hk.elim
    | .number _ _ => exact hk.elim
    | .array a =>
      obtain ⟨_, _, h⟩ := safeFor_array hsafe
      simp [Ty.hasPointers] at h
  · obtain ⟨h1, h2⟩ : val.ty = t ∧ val.img.length = t.size := by
      cases t <;> first | exact ht | exact absurd rfl hi
    have hg : ∀ v : Var, v.tag = some acc.idx → loadRam t v.ram = some val → caseGet acc v = some val := by
      intro v hv hl
      unfold caseGet accGet
      simp only [hs, Bool.true_eq_false, if_false, hv, ne_eq, not_true_eq_false, hr, hl]
      cases t <;> first | exact absurd rfl hi | simp [h1]
    match st with
    | .iface =>
      refine ⟨⟨some acc.idx, .any (some val)⟩, ?_, rfl, hg _ rfl rfl⟩
      simp [caseAs, accAs, hs, Storage.isIface, storeRam]
    | .ptr =>
      refine ⟨⟨some acc.idx, .any (some val)⟩, ?_, rfl, hg _ rfl rfl⟩
      simp [caseAs, accAs, hs, sameType, hr, h1, storeRam]
    | .slice => exact hk.elim
    | .struct _ => exact hk.elim
    | .number _ _ => exact hk.elim
    | .array a =>
      refine ⟨⟨some acc.idx, .bytes (val.img ++ (List.replicate a.size 0).drop val.img.length)⟩, ?_, rfl,
        hg _ rfl ?_⟩
      · simp [caseAs, accAs, hs, sameType, hr, h1, storeRam, zeroVar, Storage.size]
      · simp only [loadRam]
        rw [← h2, List.take_left']
        · cases val; simp at h1; subst h1; rfl
        · rfl

theorem get_wrong_tag {acc : Acc} {v : Var} (h : v.tag ≠ some acc.idx) : caseGet acc v = none := by
  unfold caseGet accGet
  split
  · next heq => split at heq <;> simp_all
  · rfl

theorem runStores_append (st : Storage) (accs : List Acc) : ∀ (a b : List (Nat × Option Value)) (v : Var),
    runStores st accs v (a ++ b) = runStores st accs (runStores st accs v a) b
  | [], _, _ => rfl
  | (i, val) :: a, b, v => by
    rw [List.cons_append, runStores, runStores]
    split <;> exact runStores_append st accs a b _

/-- C27: with interface, array or pointer storage, whatever non-nil values were assigned to a
variable, reading a case gives the value assigned last if it was of that case, and panics
otherwise. -/
theorem read_partial (st : Storage) (cases : List (Option Ty × Option Nat)) (accs : List Acc)
    (stores : List (Nat × Option Value)) (j : Nat) (acc : Acc)
    (hv : values st cases = some accs) (hj : accs[j]? = some acc)
    (ht : ∀ s ∈ stores, ∃ c, cases[s.1]? = some c ∧ Typed c.1 s.2)
    (hk : ∀ c ∈ cases, Keeps st c.1) (hn : ∀ s ∈ stores, s.2 ≠ none) :
    caseGet acc (runStores st accs (zeroVar st) stores) =
      match stores.getLast? with
      | some (i, val) => if i = j then val else none
      | none => none := by
  obtain ⟨cj, hcj, hidx, hsafe, hr, hsf⟩ := values_get hv hj
  rcases List.eq_nil_or_concat stores with rfl | ⟨init, ⟨i, val⟩, rfl⟩
  · rw [runStores]
    exact get_wrong_tag (by simp [zeroVar])
  · rw [List.concat_eq_append, runStores_append, List.getLast?_concat]
    rw [List.concat_eq_append] at ht hn
    obtain ⟨c, hc, htc⟩ := ht (i, val) (by simp)
    obtain ⟨a, ha, hai, has, har, hasf⟩ := values_get' hv hc
    have hval := hn (i, val) (by simp)
    cases val with
    | none => exact absurd rfl hval
    | some x =>
      simp only at hc htc
      have hkc := hk c (List.mem_of_getElem? hc)
      obtain ⟨t, hct⟩ : ∃ t, c.1 = some t := by
        cases h : c.1 with
        | none => rw [h] at htc; exact htc.elim
        | some t => exact ⟨t, rfl⟩
      rw [hct] at htc hkc hasf har
      obtain ⟨v, h1, h2, h3⟩ := store_read has har hasf hkc htc
      have hrun : runStores st accs (runStores st accs (zeroVar st) init) [(i, some x)] = v := by
        simp only [runStores, ha, Option.bind_some, h1]
      rw [hrun]
      simp only
      by_cases hij : i = j
      · subst hij
        rw [ha] at hj; injection hj with hj; subst hj
        rw [if_pos rfl, h3]
      · rw [if_neg hij]
        apply get_wrong_tag
        rw [h2, hai, hidx]
        simpa using hij

/-- Two cases in eight bytes: a number of four bytes, then one of two. -/
example : caseGet ⟨1, 1, true, some (.plain 2)⟩ (runStores (.array (.array 8 (.plain 1)))
      [⟨0, 0, true, some (.plain 4)⟩, ⟨1, 1, true, some (.plain 2)⟩] (zeroVar (.array (.array 8 (.plain 1))))
      [(0, some ⟨.plain 4, [1, 2, 3, 4]⟩), (1, some ⟨.plain 2, [7, 8]⟩)]) = some ⟨.plain 2, [7, 8]⟩ := by
  have := read_partial (.array (.array 8 (.plain 1))) [(some (.plain 4), none), (some (.plain 2), none)]
    [⟨0, 0, true, some (.plain 4)⟩, ⟨1, 1, true, some (.plain 2)⟩]
    [(0, some ⟨.plain 4, [1, 2, 3, 4]⟩), (1, some ⟨.plain 2, [7, 8]⟩)] 1 ⟨1, 1, true, some (.plain 2)⟩
    rfl rfl (by
      intro s hs
      simp at hs
      rcases hs with rfl | rfl
      · exact ⟨(some (.plain 4), none), rfl, rfl, rfl⟩
      · exact ⟨(some (.plain 2), none), rfl, rfl, rfl⟩)
    (by intro c _; cases c.1 <;> trivial) (by intro s hs; simp at hs; rcases hs with rfl | rfl <;> simp)
  exact this

/-- C27, whatever the storage: a case is only ever read when the last assignment that did not
panic was of that very case. -/
theorem never_wrong_case (st : Storage) (cases : List (Option Ty × Option Nat)) (accs : List Acc)
    (hv : values st cases = some accs) (j : Nat) (acc : Acc) (hj : accs[j]? = some acc) (x : Value) :
    ∀ (stores : List (Nat × Option Value)),
    caseGet acc (runStores st accs (zeroVar st) stores) = some x →
    ∃ before val after, stores = before ++ (j, val) :: after ∧ (caseAs st acc val).isSome = true ∧
      ∀ s ∈ after, ∀ a, accs[s.1]? = some a → caseAs st a s.2 = none := by
  have key : ∀ (stores : List (Nat × Option Value)) (v : Var),
      (runStores st accs v stores).tag = some acc.idx →
      (v.tag = some acc.idx ∧ ∀ s ∈ stores, ∀ a, accs[s.1]? = some a → caseAs st a s.2 = none) ∨
      ∃ before val after, stores = before ++ (j, val) :: after ∧ (caseAs st acc val).isSome = true ∧
        ∀ s ∈ after, ∀ a, accs[s.1]? = some a → caseAs st a s.2 = none := by
    intro stores
    induction stores with
    | nil => intro v h; exact Or.inl ⟨h, by simp⟩
    | cons s rest ih =>
      intro v h
      obtain ⟨i, val⟩ := s
      rw [runStores] at h
      split at h
      · next v' heq =>
        rcases ih v' h with ⟨h1, h2⟩ | ⟨b, vl, a, h1, h2, h3⟩
        · obtain ⟨ai, hai, hcs⟩ := Option.bind_eq_some_iff.mp heq
          have htag : v'.tag = some ai.idx := by
            unfold caseAs accAs at hcs
            split at hcs
            · cases hcs
            · split at hcs
              · cases hcs
              · obtain ⟨r, _, e⟩ := Option.map_eq_some_iff.mp hcs
                subst e; rfl
          obtain ⟨_, _, e1, _⟩ := values_get hv hai
          obtain ⟨_, _, e2, _⟩ := values_get hv hj
          rw [htag, e1, e2] at h1
          injection h1 with h1; subst h1
          rw [hai] at hj; injection hj with hj; subst hj
          exact Or.inr ⟨[], val, rest, rfl, by rw [hcs]; rfl, h2⟩
        · exact Or.inr ⟨(i, val) :: b, vl, a, by rw [h1]; rfl, h2, h3⟩
      · next heq =>
        rcases ih v h with ⟨h1, h2⟩ | ⟨b, vl, a, h1, h2, h3⟩
        · refine Or.inl ⟨h1, fun s hs a ha => ?_⟩
          rcases List.mem_cons.mp hs with rfl | hs
          · simp only at ha
            rw [ha] at heq; exact heq
          · exact h2 s hs a ha
        · exact Or.inr ⟨(i, val) :: b, vl, a, by rw [h1]; rfl, h2, h3⟩
  intro stores h
  have htag : (runStores st accs (zeroVar st) stores).tag = some acc.idx := by
    by_contra hne
    rw [get_wrong_tag hne] at h
    cases h
  rcases key stores _ htag with ⟨h1, _⟩ | h1
  · simp [zeroVar] at h1
  · exact h1

/-- A read that does give a value. -/
example : ∃ before val after, [(0, some (Value.mk (.plain 1) [5]))] = before ++ ((0, val) : Nat × Option Value) :: after ∧
    (caseAs .iface ⟨0, 0, true, some (.plain 1)⟩ val).isSome = true ∧
    ∀ s ∈ after, ∀ a, [Acc.mk 0 0 true (some (.plain 1))][s.1]? = some a → caseAs .iface a s.2 = none :=
  never_wrong_case .iface [(some (.plain 1), none)] _ rfl 0 _ rfl ⟨.plain 1, [5]⟩ _ rfl

/-- C27 fails: with a byte as storage a case keeps its own number instead of the value. -/
theorem read_fails : ¬ ReadClaim ∧
    caseGet ⟨0, 0, true, some (.plain 1)⟩ (runStores (.number 1 (fun n => [UInt8.ofNat n]))
      [⟨0, 0, true, some (.plain 1)⟩] (zeroVar (.number 1 (fun n => [UInt8.ofNat n])))
      [(0, some ⟨.plain 1, [7]⟩)]) = some ⟨.plain 1, [0]⟩ := by
  have h2 : caseGet ⟨0, 0, true, some (.plain 1)⟩ (runStores (.number 1 (fun n => [UInt8.ofNat n]))
      [⟨0, 0, true, some (.plain 1)⟩] (zeroVar (.number 1 (fun n => [UInt8.ofNat n])))
      [(0, some ⟨.plain 1, [7]⟩)]) = some ⟨.plain 1, [0]⟩ := by decide
  refine ⟨fun h => ?_, h2⟩
  have := h (.number 1 (fun n => [UInt8.ofNat n])) [(some (.plain 1), none)] [⟨0, 0, true, some (.plain 1)⟩]
    [(0, some ⟨.plain 1, [7]⟩)] 0 ⟨0, 0, true, some (.plain 1)⟩ rfl rfl (by
      intro s hs; simp at hs; subst hs; exact ⟨_, rfl, rfl, rfl⟩)
  rw [h2] at this
  revert this
  decide

/-- Whatever value is stored over a number, what is read depends on the case alone. -/
theorem number_forgets (n : Nat) (image : Nat → List UInt8) (acc : Acc) (a b : Option Value) (v w : Var)
    (ha : caseAs (.number n image) acc a = some v) (hb : caseAs (.number n image) acc b = some w) :
    caseGet acc v = caseGet acc w := by
  have : ∀ {val : Option Value} {u : Var}, caseAs (.number n image) acc val = some u →
      u = ⟨some acc.idx, .bytes (image acc.enum)⟩ := by
    intro val u h
    unfold caseAs accAs at h
    split at h
    · cases h
    · split at h
      · cases h
      · simp [storeRam] at h; exact h.symm
  rw [this ha, this hb]

/-- Slices and structs are accepted as storage, and then storing any case panics. -/
theorem slice_and_struct_panic (acc : Acc) (val : Option Value) (t : Ty) :
    caseAs .slice acc val = none ∧ caseAs (.struct t) acc val = none ∧
    (values .slice [(some (.plain 8), none)]).isSome = true ∧
    (values (.struct (.struct 8 (.cons (.plain 8) .nil))) [(some (.plain 8), none)]).isSome = true := by
  refine ⟨?_, ?_, by decide, by decide⟩ <;> (unfold caseAs accAs; simp [storeRam])

/-- And a nil of an interface case is stored but cannot be read. -/
theorem nil_cannot_be_read : ∃ v, caseAs .iface ⟨0, 0, true, some .iface⟩ none = some v ∧
    v.tag = some 0 ∧ caseGet ⟨0, 0, true, some .iface⟩ v = none :=
  ⟨⟨some 0, .any none⟩, rfl, rfl, rfl⟩

/-! ## Text storage -/

theorem strip_self (p t : Str) : strip p (p ++ t) = some t := by
  induction p with
  | nil => rfl
  | cons c p ih => rw [List.cons_append, strip, if_pos rfl, ih]

private theorem takeWhile_append_stop {p : Char → Bool} {s t : Str} (h : ∀ c ∈ s, p c = true)
    (ht : ∀ c, t.head? = some c → p c = false) : (s ++ t).takeWhile p = s := by
  induction s with
  | nil =>
    cases t with
    | nil => rfl
    | cons c t => rw [List.nil_append, List.takeWhile_cons, if_neg (by simp [ht c rfl])]
  | cons c s ih =>
    rw [List.cons_append, List.takeWhile_cons, if_pos (h c (by simp)), ih (fun x hx => h x (by simp [hx]))]

/-- The text after a number does not look like more of it. -/
def Stops (post : Str) : Prop :=
  ∀ c, post.head? = some c → isDec c = false ∧ c ∉ ['b', 'B', 'o', 'O', 'x', 'X', '_']

/-- Not a digit of a base up to ten. -/
theorem not_inBase {b : Nat} {c : Char} (hb : b ≤ 10) (h : isDec c = false) (hu : c ≠ '_') : inBase b c = false := by
  simp only [isDec, Bool.and_eq_false_iff, decide_eq_false_iff_not] at h
  have hv : ∀ d, digitVal c = some d → 10 ≤ d := by
    intro d hdv
    unfold digitVal at hdv
    dsimp only at hdv
    rw [if_neg (by omega)] at hdv
    split at hdv
    · cases hdv; omega
    · split at hdv
      · cases hdv; omega
      · cases hdv
  cases hc : digitVal c with
  | none => simp [inBase, hc, hu]
  | some d => have := hv d hc; simp [inBase, hc, hu]; omega

theorem scanNat_natText_append (n : Nat) (post : Str) (hp : Stops post) :
    scanNat (natText n ++ post) = some n := by
  have hp1 : ∀ b, b ≤ 10 → ∀ c, post.head? = some c → inBase b c = false := fun b hb c hc =>
    not_inBase hb (hp c hc).1 (fun e => (hp c hc).2 (by simp [e]))
  by_cases hn : n = 0
  · subst hn
    have : natText 0 = ['0'] := by rw [natText]; rfl
    rw [this]
    cases post with
    | nil => rfl
    | cons c post =>
      obtain ⟨h1, h2⟩ := hp c rfl
      simp only [List.mem_cons, List.not_mem_nil, or_false, not_or] at h2
      simp only [List.singleton_append, scanNat]
      rw [if_neg (by simp [h2]), if_neg (by simp [h2]), if_neg (by simp [h2])]
      unfold scanDigits
      simp only
      rw [show (c :: post).takeWhile (inBase 8) = [] by
        rw [List.takeWhile_cons, if_neg (by simp [hp1 8 (by decide) c rfl])]]
      rfl
  · obtain ⟨c, rest, h1, h2, h3, h4, _⟩ := natText_head n
    have hne : c ≠ '0' := h4 hn
    have hv := natText_val n
    have hall := natText_dec n
    have htw : (natText n ++ post).takeWhile (inBase 10) = natText n := takeWhile_append_stop (fun c hc => by
      have h := hall c hc
      simp only [inBase, (dec_digit h).1]
      simp only [isDec, Bool.and_eq_true, decide_eq_true_eq] at h
      simp; right; omega) (hp1 10 (by decide))
    have hu : underOK false (natText n) = true :=
      underOK_digits _ _ (fun c hc => (dec_digit (hall c hc)).2) (Or.inr (by rw [h1]; simp))
    rw [h1] at hv htw hu ⊢
    rw [List.cons_append] at htw ⊢
    unfold scanNat
    split
    · next heq => simp at heq; exact absurd heq.1 hne
    · unfold scanDigits
      simp only
      rw [htw, if_neg (by simp), if_pos hu, hv]

/-- C27 for text storage, in full: the value a case printed is the one read. -/
def TextClaim : Prop :=
  ∀ (f : Fmt) (k : Kind) (v : Val), k.Has v → f.scan k (f.print v) = v

/-- Integers are read back from text, if what follows the verb does not look like more of the
number. -/
theorem text_int_partial (f : Fmt) (w : Nat) (n : Int) (hv : (Kind.int w).Has (.i n)) (hp : Stops f.post) :
    f.scan (.int w) (f.print (.i n)) = .i n := by
  unfold Fmt.scan Fmt.print
  rw [List.append_assoc, strip_self, Option.bind_some]
  obtain ⟨c, rest, h1, h2, h3, h4, h5, h6⟩ := natText_head n.natAbs
  have hs := scanNat_natText_append n.natAbs f.post hp
  unfold Kind.Has at hv
  unfold sprint sscan
  by_cases hn : n < 0
  · simp only [if_pos hn]
    rw [dropBlank (by intro c hc; simp at hc; subst hc; decide), if_neg (by simp)]
    simp only [List.cons_append, scanSign, hs, Option.bind_some, if_true]
    have e : -((n.natAbs : Nat) : Int) = n := by omega
    rw [e, if_pos hv.2]
    simp
  · simp only [if_neg hn]
    rw [h1] at hs ⊢
    rw [List.cons_append] at hs ⊢
    rw [dropBlank (by intro x hx; simp at hx; subst hx; exact h3), if_neg (by simp)]
    have e : scanSign (c :: (rest ++ f.post)) = (false, c :: (rest ++ f.post)) := by
      unfold scanSign
      split
      · next heq => simp at heq; exact absurd heq.1 h5
      · next heq => simp at heq; exact absurd heq.1 h6
      · rfl
    simp only [e, hs, Option.bind_some, Bool.false_eq_true, if_false]
    have e2 : ((n.natAbs : Nat) : Int) = n := by omega
    rw [e2, if_pos hv.2]
    simp

/-- A word is read back from the end of the text, or before a space. -/
theorem text_string_partial (f : Fmt) (t : Str) (ht : t ≠ []) (hb : ∀ c ∈ t, isBlank c = false)
    (hp : ∀ c, f.post.head? = some c → isBlank c = true) :
    f.scan .string (f.print (.s t)) = .s t := by
  unfold Fmt.scan Fmt.print
  rw [List.append_assoc, strip_self, Option.bind_some]
  unfold sscan sprint
  simp only
  rw [dropBlank (by
    intro c hc
    cases t with
    | nil => exact absurd rfl ht
    | cons d t => simp at hc; subst hc; exact hb _ (by simp))]
  rw [if_neg (by simp [ht]), takeWhile_append_stop (fun c hc => by simp [hb c hc]) (fun c hc => by simp [hp c hc])]
  rfl

/-- It fails for anything else after the verb, and for values with spaces: `id:%v.` stores
`id:7a.` for the word `7a` and reads `7a.`, and `two words` is read as `two`. -/
theorem text_fails : ¬ TextClaim ∧
    Fmt.scan ⟨"id:".toList, ".".toList⟩ .string (Fmt.print ⟨"id:".toList, ".".toList⟩ (.s "7a".toList)) =
      .s "7a.".toList ∧
    Fmt.scan ⟨"id:".toList, []⟩ .string (Fmt.print ⟨"id:".toList, []⟩ (.s "two words".toList)) =
      .s "two".toList := by
  have h2 : Fmt.scan ⟨"id:".toList, ".".toList⟩ .string (Fmt.print ⟨"id:".toList, ".".toList⟩ (.s "7a".toList)) =
      .s "7a.".toList := by decide
  refine ⟨fun h => ?_, h2, by decide⟩
  have := h ⟨"id:".toList, ".".toList⟩ .string (.s "7a".toList) trivial
  rw [h2] at this
  revert this
  decide

/-- `call:%v!` with minus one. -/
example : Fmt.scan ⟨"call:".toList, "!".toList⟩ (.int 16) (Fmt.print ⟨"call:".toList, "!".toList⟩ (.i (-1))) =
    .i (-1) :=
  text_int_partial _ _ _ ⟨by decide, by decide, by decide⟩ (by intro c hc; simp at hc; subst hc; decide)

/-- `user %v ok` with a word. -/
example : Fmt.scan ⟨"user=".toList, " ok".toList⟩ .string (Fmt.print ⟨"user=".toList, " ok".toList⟩ (.s "ann".toList)) =
    .s "ann".toList :=
  text_string_partial _ _ (by decide) (by decide) (by intro c hc; simp at hc; subst hc; decide)

/-! ## C69: storage is never overrun, and hides no pointers -/

mutual
/-- Somewhere in the memory of a value of that type there is a pointer. -/
inductive PointerIn : Ty → Prop where
  | ptr (n : Nat) : n ≠ 0 → PointerIn (.ptr n)
  | iface : PointerIn .iface
  | struct (n : Nat) (fs : Tys) : PointerInSome fs → PointerIn (.struct n fs)
  | array (n : Nat) (e : Ty) : n ≠ 0 → PointerIn e → PointerIn (.array n e)
/-- In some field. -/
inductive PointerInSome : Tys → Prop where
  | here (t : Ty) (ts : Tys) : PointerIn t → PointerInSome (.cons t ts)
  | later (t : Ty) (ts : Tys) : PointerInSome ts → PointerInSome (.cons t ts)
end

mutual
/-- A struct is at least as large as each of its fields. -/
def Ty.Sized : Ty → Prop
  | .struct n fs => fs.Sized n
  | .array _ e => e.Sized
  | _ => True
/-- All the fields fit. -/
def Tys.Sized : Tys → Nat → Prop
  | .nil, _ => True
  | .cons t ts, n => t.size ≤ n ∧ t.Sized ∧ ts.Sized n
end

mutual
theorem pointer_size : (t : Ty) → t.Sized → PointerIn t → 0 < t.size
  | .plain _, _, h => by cases h
  | .ptr n, _, h => by cases h; simp [Ty.size]; omega
  | .iface, _, _ => by simp [Ty.size]
  | .struct n fs, hs, h => by cases h with | struct _ _ h => exact pointer_sizes fs n hs h
  | .array n e, hs, h => by
    cases h with
    | array _ _ hn h => exact Nat.mul_pos (by omega) (pointer_size e hs h)
theorem pointer_sizes : (ts : Tys) → (n : Nat) → ts.Sized n → PointerInSome ts → 0 < n
  | .nil, _, _, h => by cases h
  | .cons t ts, n, hs, h => by
    obtain ⟨h1, h2, h3⟩ := hs
    cases h with
    | here _ _ h => have := pointer_size t h2 h; omega
    | later _ _ h => exact pointer_sizes ts n h3 h
end

mutual
theorem hasPointers_iff' : (t : Ty) → t.Sized → (t.hasPointers = true ↔ PointerIn t)
  | .plain _, _ => by simp only [Ty.hasPointers]; constructor <;> intro h <;> cases h
  | .ptr n, _ => by
    simp only [Ty.hasPointers, bne_iff_ne]
    exact ⟨.ptr n, fun h => by cases h; assumption⟩
  | .iface, _ => by simp only [Ty.hasPointers]; exact ⟨fun _ => .iface, fun _ => trivial⟩
  | .struct n fs, hs => by
    simp only [Ty.hasPointers, Bool.and_eq_true, bne_iff_ne, hasPointersSome_iff' fs n hs]
    refine ⟨fun h => .struct n fs h.2, fun h => ?_⟩
    cases h with
    | struct _ _ h => exact ⟨by have := pointer_sizes fs n hs h; omega, h⟩
  | .array n e, hs => by
    have he : e.Sized := hs
    simp only [Ty.hasPointers, Bool.and_eq_true, bne_iff_ne, hasPointers_iff' e he]
    refine ⟨fun h => .array n e (by rintro rfl; simp at h) h.2, fun h => ?_⟩
    cases h with
    | array _ _ hn h =>
      have := pointer_size e he h
      exact ⟨Nat.mul_ne_zero hn (by omega), h⟩
theorem hasPointersSome_iff' : (ts : Tys) → (n : Nat) → ts.Sized n → (ts.hasPointers = true ↔ PointerInSome ts)
  | .nil, _, _ => by simp only [Tys.hasPointers]; constructor <;> intro h <;> cases h
  | .cons t ts, n, hs => by
    obtain ⟨h1, h2, h3⟩ := hs
    simp only [Tys.hasPointers, Bool.or_eq_true, hasPointers_iff' t h2, hasPointersSome_iff' ts n h3]
    refine ⟨fun h => h.elim (.here t ts) (.later t ts), fun h => ?_⟩
    cases h with
    | here _ _ h => exact Or.inl h
    | later _ _ h => exact Or.inr h
end

/-- C69: the check for pointers finds every pointer, however deep, and nothing else. -/
theorem pointers_found (t : Ty) (h : t.Sized) : t.hasPointers = true ↔ PointerIn t := hasPointers_iff' t h

/-- C69: with plain memory as storage, every case of an accepted declaration fits and neither it
nor the storage has pointers, and storing it leaves the memory as large as it was, so nothing is
written past its end. -/
theorem store_in_bounds (t : Ty) (cases : List (Option Ty × Option Nat)) (accs : List Acc)
    (hv : values (.array t) cases = some accs) (hs : t.Sized)
    (i : Nat) (acc : Acc) (ha : accs[i]? = some acc) (ty : Ty) (hr : acc.rtyp = some ty) (hty : ty.Sized)
    (val : Value) (hval : Typed (some ty) (some val)) :
    ty.size ≤ t.size ∧ ¬ PointerIn ty ∧ ¬ PointerIn t ∧
    ∃ v b, caseAs (.array t) acc (some val) = some v ∧ v.ram = .bytes b ∧ b.length = t.size := by
  obtain ⟨c, _, _, h3, h4, h5⟩ := values_get hv ha
  rw [h4] at hr
  rw [hr] at h4 h5
  obtain ⟨a1, a2, a3⟩ := safeFor_array h5
  refine ⟨a1, ?_, ?_, ?_⟩
  · rw [← pointers_found ty hty, a3]; simp
  · rw [← pointers_found t hs, a2]; simp
  · have hni : ty ≠ .iface := by rintro rfl; simp [Ty.hasPointers] at a3
    obtain ⟨h1, h2⟩ : val.ty = ty ∧ val.img.length = ty.size := by
      cases ty <;> first | exact hval | exact absurd rfl hni
    refine ⟨⟨some acc.idx, .bytes (val.img ++ (List.replicate t.size 0).drop val.img.length)⟩,
      val.img ++ (List.replicate t.size 0).drop val.img.length, ?_, rfl, ?_⟩
    · simp [caseAs, accAs, h3, sameType, h4, h1, storeRam, zeroVar, Storage.size]
    · simp [h2]; omega

/-- A case with a pointer inside a struct is refused by an array, one without is not. -/
example : values (.array (.array 64 (.plain 1))) [(some (.struct 24 (.cons (.plain 8) (.cons (.ptr 16) .nil))), none)] = none ∧
    (values (.array (.array 64 (.plain 1))) [(some (.struct 16 (.cons (.plain 8) (.cons (.plain 8) .nil))), none)]).isSome = true :=
  ⟨by decide, by decide⟩

/-! ## C67: the shared table of cases -/

/-- Two goroutines that have their tables agree on every case: what one stored the other can
read. -/
def Agree (r : Race) : Prop :=
  ∀ g h s t, r.pc g = .done s → r.pc h = .done t → ∀ i : Nat, i < s.length → s[i]? = t[i]?

/-- At the start nobody has asked. -/
def Race.init : Race := { cache := none, next := 0, pc := fun _ => .idle }

/-- C67 in full. -/
def AgreeClaim : Prop := ∀ n r, Steps n Race.init r → Agree r

/-- The first to ask has its answer, and nobody else has begun to make another. -/
def Settled (r : Race) : Prop :=
  ∃ s, r.cache = some s ∧ ∀ g, r.pc g = .idle ∨ r.pc g = .done s

theorem settled_step {n : Nat} {r r' : Race} (h : Settled r) (hs : Step n r r') : Settled r' := by
  obtain ⟨s, hc, hp⟩ := h
  have notmade : ∀ g, r.pc g ≠ .missed ∧ ∀ t, r.pc g ≠ .made t := by
    intro g; rcases hp g with h | h <;> rw [h] <;> simp
  cases hs with
  | hit g t h1 h2 =>
    rw [hc] at h2; injection h2 with h2; subst h2
    refine ⟨s, hc, fun k => ?_⟩
    simp only [Race.at]
    split
    · exact Or.inr rfl
    · exact hp k
  | miss g h1 h2 => rw [hc] at h2; cases h2
  | make g h1 => exact absurd h1 (notmade g).1
  | write g t h1 => exact absurd h1 ((notmade g).2 t)
  | append g t a h1 h2 =>
    have : t = s := by
      rcases hp g with h | h <;> rw [h1] at h
      · cases h
      · injection h
    subst this
    exact ⟨t, by simp [hc, cacheAppend, h2], hp⟩
  | again g t h1 =>
    refine ⟨s, hc, fun k => ?_⟩
    simp only [Race.at]
    split
    · exact Or.inl rfl
    · exact hp k

/-- C67: once one goroutine has its table of cases and no other is in the middle of asking, all
that ask later agree with it, however they interleave. -/
theorem agree_partial (n : Nat) (r r' : Race) (h : Settled r) (hs : Steps n r r') : Agree r' := by
  have hset : Settled r' := by
    induction hs with
    | refl => exact h
    | tail _ hs ih => exact settled_step ih hs
  obtain ⟨s, _, hp⟩ := hset
  intro g k a b hg hk i _
  rcases hp g with h1 | h1 <;> rw [hg] at h1 <;> [cases h1; injection h1 with h1]
  rcases hp k with h2 | h2 <;> rw [hk] at h2 <;> [cases h2; injection h2 with h2]
  subst h1; subst h2; rfl

/-- A goroutine alone settles it, as a package variable does before `main`. -/
theorem alone_settles (n : Nat) : ∃ r, Steps n Race.init r ∧ Settled r := by
  refine ⟨_, .tail (.tail (.tail (.refl _) (.miss _ 0 rfl rfl)) (.make _ 0 rfl)) (.write _ 0 _ rfl), _, rfl, ?_⟩
  intro g
  simp only [Race.at, Race.init]
  by_cases h : g = 0
  · simp [h]
  · simp [h]

/-- It fails when two ask first at the same time: both make a table, and neither can read what
the other stored. -/
theorem agree_fails : ¬ AgreeClaim := by
  intro h
  have h1 : Steps 1 Race.init (Race.at (Race.at Race.init 0 .missed) 1 .missed) :=
    .tail (.tail (.refl _) (.miss _ 0 rfl rfl)) (.miss _ 1 rfl rfl)
  have h2 := Steps.tail (Steps.tail h1 (.make _ 0 rfl)) (.make _ 1 rfl)
  have h3 := Steps.tail (Steps.tail h2 (.write _ 0 [0] rfl)) (.write _ 1 [1] rfl)
  have := h 1 _ h3 0 1 [0] [1] rfl rfl 0 (by decide)
  revert this
  decide

end Verif.Xyz
