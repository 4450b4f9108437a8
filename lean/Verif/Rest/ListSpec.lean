import Verif.Rest.ServeModel
import Mathlib.Data.List.Forall2
/-!
# C214, specification: what a request says an argument is

Written in terms of the request, for clients of any kind; nothing of how the handler reads is used.
-/
namespace Verif.Rest.Serve.ListSpec

open Verif.Rest Verif.Rest.Serve

variable {V : Type}

/-- The values of a name in the query, in order. -/
def queried (rq : Request) (name : Str) : List Str := (rq.query.filter (fun p => decide (p.1 = name))).map Prod.snd

/-- A text that JSON reads without quotes. -/
def Bare (std : Std) (s : Str) : Prop := std.isNumber s = true ∨ s = "true".toList ∨ s = "false".toList

/-- The text is read as this value: a kind of string is set to it, then `UnmarshalText` is asked, then `UnmarshalJSON` (as it
is if it is a number or a boolean that the type takes, and otherwise in quotes), and at last `%v` is scanned. -/
inductive Reads (std : Std) (k : Kind V) (s : Str) (v : V) : Prop
  | set (f : Str → V) (h : k.setString = some f) (e : v = f s)
  | text (f : Str → Option V) (h0 : k.setString = none) (h : k.unText = some f) (e : f s = some v)
  | bare (f : Str → Option V) (h0 : k.setString = none) (h1 : k.unText = none) (h : k.unJSON = some f) (hb : Bare std s)
      (e : f s = some v)
  | quoted (f : Str → Option V) (h0 : k.setString = none) (h1 : k.unText = none) (h : k.unJSON = some f)
      (hb : Bare std s → f s = none) (e : f (std.quote s) = some v)
  | scan (h0 : k.setString = none) (h1 : k.unText = none) (h2 : k.unJSON = none) (e : k.scan s = some v)

/-- An empty text is the zero value, any other is read. -/
def Means (std : Std) (k : Kind V) (s : Str) (v : V) : Prop := (s = [] ∧ v = k.zero) ∨ (s ≠ [] ∧ Reads std k s v)

/-- The text of a parameter in the path, in the query, or in both: the first value of the query unless it is missing or empty,
then the segment of the path. -/
inductive TextOf (rq : Request) (p : Prm V) : Str → Prop
  | query (b : Bool) (s : Str) (rest : List Str) (hl : p.loc = .at b true) (h : queried rq p.name = s :: rest) (hs : s ≠ []) : TextOf rq p s
  | path (b : Bool) (hl : p.loc = .at true b)
      (h : b = true → ∀ s rest, queried rq p.name = s :: rest → s = []) : TextOf rq p (rq.mux.pathValue p.name)
  | missing (hl : p.loc = .at false true) (h : ∀ s rest, queried rq p.name = s :: rest → s = []) : TextOf rq p []

/-- What the request says a parameter outside the body is: one value for one text, and for a list in the query every value
under the name with brackets, in order. -/
inductive Says (std : Std) (rq : Request) (p : Prm V) : Arg V → Prop
  | one (k : Kind V) (s : Str) (v : V) (hs : p.shape = .one k) (ht : TextOf rq p s) (hm : Means std k s v) : Says std rq p (.one v)
  | many (k : Kind V) (b : Bool) (vs : List V) (hs : p.shape = .slice k) (hl : p.loc = .at b true)
      (hm : List.Forall₂ (Means std k) (queried rq (p.name ++ "[]".toList)) vs) : Says std rq p (.many vs)

/-- A parameter that is not in the body and not ignored. -/
def Outside (p : Prm V) : Prop := p.loc ≠ .void ∧ p.loc ≠ .at false false

/-- The parameters this part is about: single values, and lists in the query that do not have exactly one value. -/
def Plain (rq : Request) (p : Prm V) : Prop :=
  (∃ k, p.shape = .one k) ∨
    ((∃ k, p.shape = .slice k) ∧ (∃ b, p.loc = .at b true) ∧ (queried rq (p.name ++ "[]".toList)).length ≠ 1)

end Verif.Rest.Serve.ListSpec
