import Verif.Rest.ParseLemmas
/-!
# C41: every argument is bound once
-/
namespace Verif.Rest
open Spec

/-- What a tag is to make of the arguments of a function, given how its formats use them:
one parameter per argument, of the argument's type, that reads the argument; in the path iff
some format in the path uses it, in the query iff some format in the query does (so in the
body if none does); under the name of the formats that use it; and under the rule whose turn
it is if it is in the body and there are rules. -/
structure Bound (args : List Ty) (us : List Use) (rules : List (List Char)) (q : Parser) : Prop where
  count : q.list.length = args.length
  static : q.static = []
  param : ∀ j, j < args.length → ∃ pm, ∃ a b : Bool, q.list[j]? = some pm ∧ pm.ty = args[j]? ∧
    q.heap.read pm.index = [j] ∧ pm.loc = .at a b ∧
    (a = true ↔ ∃ u ∈ us, u.1 = j + 1 ∧ u.2.2 = true) ∧
    (b = true ↔ ∃ u ∈ us, u.1 = j + 1 ∧ u.2.2 = false) ∧
    (∀ u ∈ us, u.1 = j + 1 → pm.name = u.2.1) ∧
    ((∀ u ∈ us, u.1 ≠ j + 1) → pm.name = (rules[(unused us j).length]?).getD [])

private theorem loc_body_iff (us : List Use) (j : Nat) :
    Loc.at (us.any (fun u => u.1 == j + 1 && u.2.2)) (us.any (fun u => u.1 == j + 1 && !u.2.2)) = Loc.body ↔
      us.all (fun u => u.1 != j + 1) = true := by
  rw [Loc.body, Loc.at.injEq, List.any_eq_false, List.any_eq_false, List.all_eq_true]
  constructor
  · rintro ⟨h1, h2⟩ u hu
    have a := h1 u hu
    have b := h2 u hu
    cases hb : u.2.2 <;> simp [hb] at a b ⊢ <;> assumption
  · intro h
    constructor <;> intro u hu <;> have := h u hu <;> simp at this <;> simp [this]

private theorem bodyCount_take (args : List Ty) (us : List Use) (p : Parser) (hk : Knows args us p) :
    ∀ j, j ≤ args.length → bodyCount (p.list.take j) = (unused us j).length
  | 0, _ => rfl
  | j + 1, h => by
    have ih := bodyCount_take args us p hk j (by omega)
    obtain ⟨q, h1, h2, _⟩ := hk.param j (by omega)
    rw [List.take_add_one, h1]
    unfold unused bodyCount at *
    rw [List.range_succ, List.filter_append, List.filter_append, List.length_append, ih,
      List.length_append]
    congr 1
    simp only [Option.toList, List.filter_cons, List.filter_nil, h2, loc_body_iff, decide_eq_true_eq]
    split <;> rfl

/-- C41 for tags of named formats, in the path and in the query, in any number and order:
if they only use arguments that exist, and the same argument under the same name, and there
are no argument rules or enough of them, then the tag is accepted and every argument is bound
as it should be. -/
theorem arguments_bound_partial (args : List Ty) (ps : List Piece) (qs : List (List Char × Place))
    (hp : ∀ p ∈ ps, p.Clean) (hq : ∀ q ∈ qs, CleanName q.1 ∧ q.2.Clean)
    (hfit : UsesFit args.length (usesOf (slotsOf ps qs))) (rules : List (List Char))
    (hr : rules = [] ∨ (unused (usesOf (slotsOf ps qs)) args.length).length ≤ rules.length) :
    ∃ q, parseTag args (writeBoth ps qs) rules = .ok q ∧
      Bound args (usesOf (slotsOf ps qs)) rules q := by
  rw [parseTag_slots args ps qs hp hq]
  have hn : ∀ s ∈ slotsOf ps qs, s.name ≠ [] := by
    intro s hs
    rcases List.mem_append.mp hs with hs | hs
    · exact (pathSlots_clean ps hp s hs).1.1
    · obtain ⟨q, hq', rfl⟩ := List.mem_map.mp hs
      exact (hq q hq').1.1
  obtain ⟨p, h1, h2, _, hk⟩ := bindAll_knows args (slotsOf ps qs) hn 0 [] (newParser args) rfl
    (knows_new args) (by simpa [usesOf] using hfit)
  rw [List.nil_append] at hk
  change Knows args (usesOf (slotsOf ps qs)) p at hk
  generalize usesOf (slotsOf ps qs) = us at *
  rw [h1]
  simp only [R.bind, Parser.parseBody]
  have hcount : bodyCount p.list = (unused us args.length).length := by
    rw [← bodyCount_take args us p hk args.length (Nat.le_refl _), List.take_of_length_le (by rw [hk.len]; exact Nat.le_refl _)]
  obtain ⟨list, h', e, hlen, hge, hread, hpm⟩ := bodyParams_spec args rules p.list 0 rules p.heap
    (by
      intro k q hk' _
      obtain ⟨hlt, _⟩ := List.getElem?_eq_some_iff.mp hk'
      rw [hk.len] at hlt; omega)
    (by rw [hcount]; exact hr)
  rw [e]
  refine ⟨_, rfl, ⟨by simp [hlen, hk.len], by simp only [h2]; rfl, ?_⟩⟩
  intro j hj
  obtain ⟨q, g1, g2, g3, g4⟩ := hk.param j hj
  obtain ⟨q', k1, k2, k3⟩ := hpm j q g1
  have hb := loc_body_iff us j
  refine ⟨q', us.any (fun u => u.1 == j + 1 && u.2.2), us.any (fun u => u.1 == j + 1 && !u.2.2), k1, ?_⟩
  have ha1 : us.any (fun u => u.1 == j + 1 && u.2.2) = true ↔ ∃ u ∈ us, u.1 = j + 1 ∧ u.2.2 = true := by
    rw [List.any_eq_true]; simp
  have hb1 : us.any (fun u => u.1 == j + 1 && !u.2.2) = true ↔ ∃ u ∈ us, u.1 = j + 1 ∧ u.2.2 = false := by
    rw [List.any_eq_true]; simp
  by_cases hbody : q.loc = Loc.body
  · obtain ⟨c1, c2, c3, c4⟩ := k3 hbody
    have hall : ∀ u ∈ us, u.1 ≠ j + 1 := by
      have := (hb.mp (by rw [← g2]; exact hbody))
      rw [List.all_eq_true] at this
      intro u hu; simpa using this u hu
    refine ⟨by simpa using c2, by simpa using c3, by rw [c1, g2], ha1, hb1,
      fun u hu h => absurd h (hall u hu), fun _ => ?_⟩
    rw [c4, bodyCount_take args us p hk j (by omega)]
    by_cases hr : rules = []
    · rw [if_pos hr, g3 hall, hr]; rfl
    · rw [if_neg hr]
  · have := k2 hbody; subst this
    have hex : ∃ u ∈ us, u.1 = j + 1 := by
      rw [g2, loc_body_iff, List.all_eq_true] at hbody
      apply Classical.byContradiction
      intro hne
      apply hbody
      intro u hu
      simp only [bne_iff_ne, ne_eq]
      exact fun h => hne ⟨u, hu, h⟩
    obtain ⟨u, hu, hut⟩ := hex
    obtain ⟨d1, d2, d3, d4⟩ := g4 u hu hut
    refine ⟨d2, ?_, g2, ha1, hb1, fun v hv h => (g4 v hv h).1, fun hnone => absurd hut (hnone u hu)⟩
    simp only
    rw [hread _ d3, d4]

/-- A tag with argument rules, but fewer than arguments left for the body, is refused. -/
theorem too_few_rules_refused (args : List Ty) (ps : List Piece) (qs : List (List Char × Place))
    (hp : ∀ p ∈ ps, p.Clean) (hq : ∀ q ∈ qs, CleanName q.1 ∧ q.2.Clean)
    (hfit : UsesFit args.length (usesOf (slotsOf ps qs))) (rules : List (List Char)) (hr : rules ≠ [])
    (hf : rules.length < (unused (usesOf (slotsOf ps qs)) args.length).length) :
    parseTag args (writeBoth ps qs) rules = .err := by
  rw [parseTag_slots args ps qs hp hq]
  have hn : ∀ s ∈ slotsOf ps qs, s.name ≠ [] := by
    intro s hs
    rcases List.mem_append.mp hs with hs | hs
    · exact (pathSlots_clean ps hp s hs).1.1
    · obtain ⟨q, hq', rfl⟩ := List.mem_map.mp hs
      exact (hq q hq').1.1
  obtain ⟨p, h1, h2, _, hk⟩ := bindAll_knows args (slotsOf ps qs) hn 0 [] (newParser args) rfl
    (knows_new args) (by simpa [usesOf] using hfit)
  rw [List.nil_append] at hk
  change Knows args (usesOf (slotsOf ps qs)) p at hk
  rw [h1]
  simp only [R.bind, Parser.parseBody]
  rw [bodyParams_short args rules hr p.list 0 rules p.heap
    (by
      intro k q hk' _
      obtain ⟨hlt, _⟩ := List.getElem?_eq_some_iff.mp hk'
      rw [hk.len] at hlt; omega)
    (by
      rw [← bodyCount_take args _ p hk args.length (Nat.le_refl _),
        List.take_of_length_le (by rw [hk.len]; exact Nat.le_refl _)] at hf
      exact hf)]

/-- Two arguments for the body and one rule. -/
example : parseTag [.scalar false, .scalar true] "/users".toList ["data".toList] = .err :=
  too_few_rules_refused _ [.text "users".toList] [] (by intro p hp; simp at hp; subst hp; exact ⟨by decide, by decide, by decide⟩)
    (by simp) ⟨by simp [slotsOf, pathSlots, usesOf, targets], by simp [slotsOf, pathSlots, usesOf, targets]⟩
    _ (by simp) (by decide)

/-- The same with a format beyond what fits: once a format stands for an argument that does
not exist, or an argument gets a second name, the tag is refused -- except for argument 0,
which crashes the process (`argument_zero_panics`). -/
theorem misfit_refused_partial (args : List Ty) (ps : List Piece) (qs : List (List Char × Place))
    (hp : ∀ p ∈ ps, p.Clean) (hq : ∀ q ∈ qs, CleanName q.1 ∧ q.2.Clean)
    (good bad : List Use) (t : Nat) (n : List Char) (b : Bool)
    (hsplit : usesOf (slotsOf ps qs) = good ++ (t, n, b) :: bad)
    (hgood : UsesFit args.length good) (rules : List (List Char)) :
    (args.length < t → parseTag args (writeBoth ps qs) rules = .err) ∧
    (t = 0 → parseTag args (writeBoth ps qs) rules = .panic) ∧
    (0 < t → (∃ u ∈ good, u.1 = t ∧ u.2.1 ≠ n) → parseTag args (writeBoth ps qs) rules = .err) := by
  rw [parseTag_slots args ps qs hp hq]
  have hn : ∀ s ∈ slotsOf ps qs, s.name ≠ [] := by
    intro s hs
    rcases List.mem_append.mp hs with hs | hs
    · exact (pathSlots_clean ps hp s hs).1.1
    · obtain ⟨q, hq', rfl⟩ := List.mem_map.mp hs
      exact (hq q hq').1.1
  have key : ∀ (ss : List Slot), (∀ s ∈ ss, s.name ≠ []) → ∀ (last : Nat) (us good : List Use) (p : Parser),
      p.pos = last → Knows args us p → (∀ u ∈ us, u.2.1 ≠ []) →
      (targets last (ss.map Slot.place)).zip (ss.map (fun s => (s.name, s.inPath))) = good ++ (t, n, b) :: bad →
      UsesFit args.length (us ++ good) →
      (args.length < t → p.bindAll args ss = .err) ∧ (t = 0 → p.bindAll args ss = .panic) ∧
      (0 < t → (∃ u ∈ us ++ good, u.1 = t ∧ u.2.1 ≠ n) → p.bindAll args ss = .err) := by
    intro ss
    induction ss with
    | nil => intro _ last us good p _ _ _ h; simp at h
    | cons s ss ih =>
      intro hns last us good p hpos hk hnz hz hfit
      obtain ⟨t', ht', _, he⟩ := usesOf_cons last s ss
      rw [he] at hz
      rw [Parser.bindAll, hpos, ← ht']
      cases good with
      | nil =>
        simp only [List.nil_append, List.cons.injEq, Prod.mk.injEq] at hz
        obtain ⟨⟨rfl, hsn, hsb⟩, _⟩ := hz
        have hbig : args.length < t' →
            ({ p with pos := (t' : Int) }.bindArg args s.name (.at s.inPath !s.inPath)) = .err := by
          intro h
          unfold Parser.bindArg
          rw [if_pos (by simp; omega)]
        refine ⟨?_, ?_, ?_⟩
        · intro h; rw [hbig h]; rfl
        · intro h
          subst h
          unfold Parser.bindArg
          simp only
          rw [if_neg (by simp; omega), if_pos (by simp)]
          rfl
        · rintro h0 ⟨u, hu, hut, hune⟩
          rw [List.append_nil] at hu hfit
          by_cases hlt : args.length < t'
          · rw [hbig hlt]; rfl
          · obtain ⟨ex, hex, _, _, hsome⟩ := hk.param (t' - 1) (by omega)
            unfold Parser.bindArg
            simp only
            rw [if_neg (by omega), if_neg (by omega)]
            have e1 : ((t' : Int) - 1).toNat = t' - 1 := by omega
            rw [e1, hex]
            simp only
            have hnm := (hsome u hu (by omega)).1
            have hne : ex.name ≠ [] := by rw [hnm]; exact hnz u hu
            rw [if_pos ⟨hne, by rw [hnm, hsn]; exact hune⟩]
            rfl
      | cons g good =>
        simp only [List.cons_append, List.cons.injEq] at hz
        obtain ⟨rfl, hz⟩ := hz
        have hfit1 : UsesFit args.length (us ++ [(t', s.name, s.inPath)]) :=
          ⟨fun u hu => hfit.1 u (by simp at hu ⊢; tauto), fun u hu v hv => hfit.2 u (by simp at hu ⊢; tauto) v (by simp at hv ⊢; tauto)⟩
        obtain ⟨q, h1, h2, h3, h4⟩ := knows_bind args us p hk t' s.name s.inPath (hns s (by simp)) hfit1
        rw [h1]
        have := ih (fun x hx => hns x (by simp [hx])) t' _ good q h3 h2
          (by intro u hu
              rcases List.mem_append.mp hu with hu | hu
              · exact hnz u hu
              · simp at hu; subst hu; exact hns s (by simp))
          hz (by simpa using hfit)
        simpa [R.bind] using this
  have := key (slotsOf ps qs) hn 0 [] good (newParser args) rfl (knows_new args) (by simp) hsplit (by simpa using hgood)
  obtain ⟨a, b', c⟩ := this
  exact ⟨fun h => by rw [a h]; rfl, fun h => by rw [b' h]; rfl, fun h h' => by rw [c h (by simpa using h')]; rfl⟩

private def samplePieces : List Piece :=
  [.text "users/".toList, .slot "id".toList (.nth "2".toList), .text "/posts".toList]
private def sampleQuery : List (List Char × Place) := [("limit".toList, .next), ("id".toList, .nth "2".toList)]

private theorem clean_of_name (n : List Char) (h : decide (n ≠ [] ∧ n.head? ≠ some '%' ∧ '=' ∉ n ∧ '{' ∉ n ∧ '}' ∉ n ∧ '?' ∉ n ∧ '&' ∉ n) = true) :
    CleanName n := by simpa [CleanName] using h

private theorem sample_clean : (∀ p ∈ samplePieces, p.Clean) ∧
    (∀ q ∈ sampleQuery, CleanName q.1 ∧ q.2.Clean) := by
  constructor
  · intro p hp
    have : p = .text "users/".toList ∨ p = .slot "id".toList (.nth "2".toList) ∨ p = .text "/posts".toList := by
      simpa [samplePieces] using hp
    rcases this with rfl | rfl | rfl
    · exact ⟨by decide, by decide, by decide⟩
    · exact ⟨clean_of_name _ (by decide), by decide, by decide, by decide⟩
    · exact ⟨by decide, by decide, by decide⟩
  · intro q hq
    have : q = ("limit".toList, .next) ∨ q = ("id".toList, .nth "2".toList) := by
      simpa [sampleQuery] using hq
    rcases this with rfl | rfl
    · exact ⟨clean_of_name _ (by decide), trivial⟩
    · exact ⟨clean_of_name _ (by decide), by decide, by decide, by decide⟩

/-- `/users/{id=%[2]v}/posts?limit=%v&id=%[2]v` on a function of three arguments: the second is
in the path and the query, the third in the query, the first in the body. -/
example : writeBoth samplePieces sampleQuery =
      "/users/{id=%[2]v}/posts?limit=%v&id=%[2]v".toList ∧
    ∃ q, parseTag [.scalar false, .scalar true, .scalar false] (writeBoth samplePieces sampleQuery) ["data".toList] = .ok q ∧
      Bound [.scalar false, .scalar true, .scalar false]
        [(2, "id".toList, true), (3, "limit".toList, false), (2, "id".toList, false)] ["data".toList] q := by
  refine ⟨by decide, ?_⟩
  have hu : usesOf (slotsOf samplePieces sampleQuery) =
      [(2, "id".toList, true), (3, "limit".toList, false), (2, "id".toList, false)] := by decide
  have := arguments_bound_partial [.scalar false, .scalar true, .scalar false] samplePieces sampleQuery
    sample_clean.1 sample_clean.2 (by rw [hu]; constructor <;> decide) ["data".toList] (by rw [hu]; decide)
  rwa [hu] at this

/-- C41 in full, as far as crashes go: no tag crashes the process. -/
def NoPanicClaim : Prop :=
  ∀ (args : List Ty) (tag : List Char) (rules : List (List Char)), parseTag args tag rules ≠ .panic

/-- C41 fails: argument 0 crashes the process. -/
theorem argument_zero_panics :
    parseTag [.scalar false] "/users/{id=%[0]v}".toList [] = .panic ∧ ¬ NoPanicClaim := by
  have h := (misfit_refused_partial [.scalar false] [.text "users/".toList, .slot "id".toList (.nth "0".toList)] []
    (by
      intro p hp
      have : p = .text "users/".toList ∨ p = .slot "id".toList (.nth "0".toList) := by simpa using hp
      rcases this with rfl | rfl
      · exact ⟨by decide, by decide, by decide⟩
      · exact ⟨clean_of_name _ (by decide), by decide, by decide, by decide⟩)
    (by simp) [] [] 0 "id".toList true (by decide) ⟨by simp, by simp⟩ []).2.1 rfl
  exact ⟨h, fun hc => hc _ _ _ h⟩

/-- And so do a negative index and an empty format. -/
theorem odd_formats_panic :
    (parseTag [.scalar false] "/users/{id=%[-1]v}".toList [] matches .panic) = true ∧
    (parseTag [.scalar false] "/users/{id=}".toList [] matches .panic) = true := by
  constructor <;> decide

/-- Out of range from above is refused. -/
example : parseTag [.scalar false] "/users/{id=%[2]v}".toList [] = .err :=
  (misfit_refused_partial [.scalar false] [.text "users/".toList, .slot "id".toList (.nth "2".toList)] []
    (by
      intro p hp
      have : p = .text "users/".toList ∨ p = .slot "id".toList (.nth "2".toList) := by simpa using hp
      rcases this with rfl | rfl
      · exact ⟨by decide, by decide, by decide⟩
      · exact ⟨clean_of_name _ (by decide), by decide, by decide, by decide⟩)
    (by simp) [] [] 2 "id".toList true (by decide) ⟨by simp, by simp⟩ []).1 (by decide)

end Verif.Rest
