import Verif.Xray.ErrModel
/-!
# C181: errors passed through xray keep their meaning and say where they passed

The specification is about the history of an error: it began as a value of some package, and on its way up it was
passed to `xray.New` at a place, or given more text with `fmt.Errorf`, or joined to another error.
-/
namespace Verif.Xray.Err

/-- One thing that happens to an error on its way up. -/
inductive Hop
  | new (place : Place)
  | errorf (pre : Str)
  | join (before : Error)
  deriving Repr

/-- A value of another package, and what happened to it, first things first. -/
structure Life where
  id : Nat
  text : Str
  hops : List Hop

/-- The error that results. -/
def hop (e : Error) : Hop → Error
  | .new p => .traced p e
  | .errorf pre => .wrapped pre e
  | .join b => .joined b e

def Life.result (l : Life) : Error := l.hops.foldl hop (.value l.id l.text none)

/-- The same without x-ray: every `xray.New` is left out. -/
def Life.plain (l : Life) : Error :=
  (l.hops.filter fun | .new _ => false | _ => true).foldl hop (.value l.id l.text none)

/-- The places passed, first places first. -/
def Life.places (l : Life) : List Place := l.hops.filterMap fun | .new p => some p | _ => none

/-- How the documentation of Go's traces writes a place. -/
def line (p : Place) : Str := p.function ++ "()\n\t".toList ++ p.file ++ ":".toList ++ (toString p.line).toList ++ "\n".toList

theorem isFoldl (id : Nat) : ∀ (hops : List Hop) (e e' : Error), e.is id = e'.is id →
    (hops.foldl hop e).is id = ((hops.filter fun | .new _ => false | _ => true).foldl hop e').is id
  | [], _, _, h => h
  | .new p :: hops, e, e', h => by
    simp only [List.foldl_cons, hop, List.filter_cons]
    exact isFoldl id hops _ _ (by simpa [Error.is] using h)
  | .errorf pre :: hops, e, e', h => by
    simp only [List.foldl_cons, hop, List.filter_cons]
    exact isFoldl id hops _ _ (by simpa [hop, Error.is] using h)
  | .join b :: hops, e, e', h => by
    simp only [List.foldl_cons, hop, List.filter_cons]
    exact isFoldl id hops _ _ (by simp [hop, Error.is, h])

/-- **C181** (identity): whatever happens to an error, `errors.Is` finds the same values in it with x-ray as
without. -/
theorem matches_kept (l : Life) (id : Nat) : l.result.is id = l.plain.is id :=
  isFoldl id l.hops _ _ rfl

/-- **C181** (nil): no error stays no error, however many frames are skipped, and `Error` without skipping frames
is `New`. -/
theorem nil_kept (stack : Stack) (skip : Nat) : new stack none = none ∧ errorSkip stack skip none = none ∧
    (∀ e, errorSkip stack 0 e = new stack e) ∧ (∀ e, (new stack e).isSome = e.isSome) := by
  refine ⟨rfl, rfl, ?_, ?_⟩ <;> intro e <;> cases e <;> rfl

/-- **C181** (the place): the place noted is the one `skip` frames above the caller of `xray.Error`; frame 0 is
`xray.Error` itself. -/
theorem place_noted (stack : Stack) (skip : Nat) (e : Error) :
    (errorSkip stack skip (some e)).map Error.source = some (some (stack (1 + skip))) := by
  simp [errorSkip, Error.source, Nat.add_comm]

/-! ### The message -/

/-- No `fmt.Errorf` gets a value that comes straight from `xray.New`. -/
def Life.untangled (l : Life) : Prop :=
  ∀ before after pre p, l.hops ≠ before ++ .new p :: .errorf pre :: after

/-- The last thing that happened was `xray.New`. -/
def Error.isTraced : Error → Bool
  | .traced _ _ => true
  | _ => false

theorem wrapped_text (pre : Str) (e : Error) (h : e.isTraced = false) : (Error.wrapped pre e).text = pre ++ e.text := by
  cases e <;> first | rfl | simp [Error.isTraced] at h

theorem textFoldl : ∀ (hops : List Hop) (e e' : Error), e.text = e'.text →
    (∀ before after pre p, hops ≠ before ++ .new p :: .errorf pre :: after) →
    (∀ pre after, hops = .errorf pre :: after → e.isTraced = false) → e'.isTraced = false →
    (hops.foldl hop e).text = ((hops.filter fun | .new _ => false | _ => true).foldl hop e').text
  | [], _, _, h, _, _, _ => h
  | .new p :: hops, e, e', h, hu, _, ht' => by
    simp only [List.foldl_cons, hop, List.filter_cons]
    refine textFoldl hops _ _ (by simpa [Error.text] using h) ?_ ?_ ht'
    · intro b a pre q hh; exact hu (.new p :: b) a pre q (by rw [hh]; rfl)
    · intro pre after hh; exact absurd (by rw [hh]; rfl) (hu [] after pre p)
  | .errorf pre :: hops, e, e', h, hu, ht, ht' => by
    simp only [List.foldl_cons, hop, List.filter_cons]
    refine textFoldl hops _ _ ?_ ?_ (by intros; rfl) rfl
    · show (Error.wrapped pre e).text = (Error.wrapped pre e').text
      rw [wrapped_text _ _ (ht pre hops rfl), wrapped_text _ _ ht', h]
    · intro b a q r hh; exact hu (.errorf pre :: b) a q r (by rw [hh]; rfl)
  | .join b :: hops, e, e', h, hu, _, _ => by
    simp only [List.foldl_cons, hop, List.filter_cons]
    refine textFoldl hops _ _ (by simp [hop, Error.text, h]) ?_ (by intros; rfl) rfl
    intro c a q r hh; exact hu (.join b :: c) a q r (by rw [hh]; rfl)

/-- **C181** (message), partial: the text of an error is what it would be without x-ray, unless `fmt.Errorf` is
given what `xray.New` returned. -/
theorem message_kept_partial (l : Life) (h : l.untangled) : l.result.text = l.plain.text :=
  textFoldl l.hops _ _ rfl h (by intros; rfl) rfl

/-- An error that was given text and then passed twice. -/
def exPlace : Place := ⟨"main.f".toList, "main.go".toList, 7, true⟩
def exLife : Life := ⟨3, "oops".toList, [.errorf "f: ".toList, .new exPlace, .new exPlace]⟩

example : exLife.result.text = "f: oops".toList := by decide +kernel

theorem exLife_untangled : exLife.untangled := by
  intro b a pre p h
  match b, h with
  | [], h => simp [exLife] at h
  | [_], h => simp [exLife] at h
  | [_, _], h => simp [exLife] at h
  | [_, _, _], h => simp [exLife] at h
  | _ :: _ :: _ :: _ :: _, h => simp [exLife] at h

example : exLife.result.text = exLife.plain.text := message_kept_partial exLife exLife_untangled

/-- **C181** (message), the full claim is false: the text of `fmt.Errorf("f: %w", xray.New(err))` has the name of
the function and the file in it. -/
theorem message_kept_fails : ∃ l : Life, l.result.text ≠ l.plain.text ∧
    l.plain.text = "f: oops".toList ∧ l.result.text = "f: Error: oops\n\nmain.f()\n\tmain.go:7\n".toList :=
  ⟨⟨3, "oops".toList, [.new exPlace, .errorf "f: ".toList]⟩, by decide +kernel, by decide +kernel, by decide +kernel⟩

/-! ### The places -/

/-- The error was not joined to another. -/
def Life.single (l : Life) : Prop := ∀ b, .join b ∉ l.hops

theorem itoa_line (p : Place) (h : p.ok = true) : writePlace p = line p := by
  simp [writePlace, h, line, itoa]

theorem flatMap_lines : ∀ ps : List Place, (∀ p ∈ ps, p.ok = true) → ps.flatMap line = ps.flatMap writePlace
  | [], _ => rfl
  | p :: ps, h => by
    rw [List.flatMap_cons, List.flatMap_cons, itoa_line p (h p List.mem_cons_self),
      flatMap_lines ps fun q hq => h q (List.mem_cons_of_mem _ hq)]

theorem chain_traced (p : Place) (e : Error) : writeTrace (Error.traced p e).chain = writeTrace e.chain ++ writePlace p := by
  simp [writeTrace, Error.chain, Error.source]

theorem chain_wrapped (pre : Str) (e : Error) : writeTrace (Error.wrapped pre e).chain = writeTrace e.chain := by
  simp [writeTrace, Error.chain, Error.source]

theorem traceFoldl : ∀ (hops : List Hop) (e : Error), (∀ b, Hop.join b ∉ hops) →
    writeTrace (hops.foldl hop e).chain =
      writeTrace e.chain ++ (hops.filterMap fun | .new p => some p | _ => none).flatMap writePlace
  | [], e, _ => by simp
  | .new p :: hops, e, h => by
    rw [List.foldl_cons, traceFoldl hops _ (fun b hb => h b (List.mem_cons_of_mem _ hb))]
    simp [hop, chain_traced]
  | .errorf pre :: hops, e, h => by
    rw [List.foldl_cons, traceFoldl hops _ (fun b hb => h b (List.mem_cons_of_mem _ hb))]
    simp [hop, chain_wrapped]
  | .join b :: hops, e, h => absurd List.mem_cons_self (h b)

/-- **C181** (places), partial: printing an error that comes straight from `xray.New` prints `Error:` and its
message, an empty line, and every place it passed, first places first, if it was not joined to another. -/
theorem places_printed_partial (l : Life) (last : Place) (earlier : List Hop) (hl : l.hops = earlier ++ [.new last])
    (hs : l.single) (hok : ∀ p ∈ l.places, p.ok = true) :
    l.result.printed = ['E', 'r', 'r', 'o', 'r', ':', ' '] ++ l.result.text ++ ['\n', '\n'] ++ l.places.flatMap line := by
  have hr : l.result = .traced last (earlier.foldl hop (.value l.id l.text none)) := by
    simp [Life.result, hl, hop]
  have hp : l.places = (earlier.filterMap fun | .new p => some p | _ => none) ++ [last] := by
    simp [Life.places, hl, List.filterMap_append]
  have hw : l.places.flatMap line = l.places.flatMap writePlace := flatMap_lines l.places hok
  have ht := traceFoldl earlier (.value l.id l.text none)
    (fun b hb => hs b (by rw [hl]; exact List.mem_append_left _ hb))
  have h0 : writeTrace (Error.value l.id l.text none).chain = [] := by
    simp [writeTrace, Error.chain, Error.source]
  rw [hw, hr, Error.printed, format, ht, hp, h0, List.nil_append, List.flatMap_append, Error.text]
  simp only [List.flatMap_cons, List.flatMap_nil, List.append_nil, List.append_assoc, List.cons_append, List.nil_append]

example : exLife.result.printed = "Error: f: oops\n\nmain.f()\n\tmain.go:7\nmain.f()\n\tmain.go:7\n".toList := by
  rw [places_printed_partial exLife exPlace [.errorf "f: ".toList, .new exPlace] rfl
    (by intro b h; simp [exLife] at h) (by decide)]
  decide +kernel

/-- **C181** (places), the full claim is false: the places passed before an error was joined to another are not
printed. -/
theorem places_printed_fails : ∃ (l : Life) (earlier : List Hop) (last p : Place), l.hops = earlier ++ [.new last] ∧
    p ∈ l.places ∧ p.ok = true ∧ l.result.printed = "Error: other\noops\n\nmain.f()\n\tmain.go:7\n".toList ∧
    p.function = "main.g".toList :=
  ⟨⟨3, "oops".toList, [.new ⟨"main.g".toList, "main.go".toList, 9, true⟩, .join (.value 4 "other".toList none), .new exPlace]⟩,
    [.new ⟨"main.g".toList, "main.go".toList, 9, true⟩, .join (.value 4 "other".toList none)], exPlace, ⟨"main.g".toList, "main.go".toList, 9, true⟩, rfl, by decide, rfl, by decide +kernel, rfl⟩

end Verif.Xray.Err
