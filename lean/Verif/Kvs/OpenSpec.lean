import Verif.Kvs.OpenModel

/-! # Opened key-value schemas: specification (C207) -/
namespace Verif.Kvs.Open
variable {K V : Type} [DecidableEq K]

/-- A call of a mathematical map. -/
def meantOne (zero : V) (f : K → Option V) : Call K V → (K → Option V) × Answer V
  | .get k => (f, .value ((f k).getD zero) (f k).isSome)
  | .set k v => (fun k' => if k' = k then some v else f k', .done)
  | .del k => (fun k' => if k' = k then none else f k', .done)
  | .commit ins _ del => (applied f ins del, .done)

/-- The answers if every field is a map of its own. -/
def meantAll (zero : V) : (Nat → K → Option V) → List (Nat × Call K V) → List (Answer V)
  | _, [] => []
  | fs, (i, c) :: cs => (meantOne zero (fs i) c).2 ::
    meantAll zero (fun j => if j = i then (meantOne zero (fs i) c).1 else fs j) cs

/-- C207: the maps of a schema are maps of their own. -/
def MapsAreTheirOwn : Prop :=
  ∀ (zero : Nat) (schema : List Field) (cs : List (Nat × Call Nat Nat)),
    (∀ c ∈ cs, c.2.Wf ∧ ∃ f, schema[c.1]? = some f ∧ f.exported = true ∧ f.isMap = true) →
    answers zero schema [] cs = meantAll zero (fun _ _ => none) cs

end Verif.Kvs.Open
