import Verif.Sdk.Model

/-! # The JavaScript client: specification -/
namespace Verif.Sdk.Spec
open Verif.Sdk

/-- A JavaScript name in ASCII. -/
def Name (s : Str) : Prop :=
  s ≠ [] ∧ (∀ c, s.head? = some c → c.isDigit = false) ∧ ∀ c ∈ s, c.isAlphanum = true ∨ c = '_' ∨ c = '$'

/-- `/a/b`; the root is `/`. -/
def text (segs : List Str) : Str := if segs = [] then ['/'] else segs.flatMap fun s => '/' :: s

/-- A document has this operation. -/
def Offered (docs : List (Str × Item)) (path : Str) (m : Meth) : Prop := ∃ item, (path, item) ∈ docs ∧ item m = true

/-- All paths are made of names, none of which is one of the methods'. -/
def Plain (docs : List (Str × Item)) : Prop :=
  ∀ d ∈ docs, ∃ segs, d.1 = text segs ∧ ∀ s ∈ segs, Name s ∧ ∀ m : Meth, s ≠ m.name

/-- The client loads, and its function at a path and method sends that request, if the document has it; otherwise there is
no such function. -/
def Sends (docs : List (Str × Item)) (allowed : Meth → Prop) : Prop :=
  ∀ out, Emits false (build docs) out → ∃ client, load out = some client ∧
    ∀ host segs m r, (∀ s ∈ segs, Name s) → allowed m →
      (invoke host client segs m = some r ↔ Offered docs (text segs) m ∧ r = ⟨host ++ text segs, m.name⟩)

end Verif.Sdk.Spec
