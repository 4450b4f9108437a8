import Verif.Rest.PipeModel
import Verif.Rest.MuxProps
/-!
# C119, C120, C122-C131: what a host does with a request
-/
namespace Verif.Rest.Serve

open Verif.Rest Verif.Rest.Spec

variable {V C : Type}

/-- Shorthand for texts. -/
private def S (s : String) : Str := s.toList

/-! ## C119: authentication and authorization come first -/

/-- C119: whatever the request, the implementation is called only after the authenticator
accepted the request and then the very context and arguments of the call, and it is called
once. -/
theorem call_is_authorized (env : Env V C) (a : Auth V C) (ha : env.auth = some a) (op : Op V)
    (rq : Request) (w : W) (ctx : C) (args : Cells V)
    (h : Event.call ctx args ∈ (serveOp env op rq w).1) :
    a.authenticate rq = (ctx, none) ∧ a.authorize ctx rq args = none ∧
      readArgs env.std env.codec op rq = .ok args ∧
      (serveOp env op rq w).1 = [.authenticate, .authorize ctx args, .call ctx args] := by
  unfold serveOp at h ⊢
  rw [ha] at h ⊢
  dsimp only at h ⊢
  rcases hau : a.authenticate rq with ⟨c, _ | e⟩
  · rw [hau] at h
    dsimp only at h ⊢
    have h := (List.mem_cons.mp h).resolve_left (by simp)
    unfold serveKnown at h ⊢
    split at h
    · simp at h
    · rename_i hp
      rw [if_neg hp]
      rcases hr : readArgs env.std env.codec op rq with args' | m | code | _
      · rw [hr] at h
        dsimp only at h ⊢
        unfold serveArgs at h ⊢
        rw [ha] at h ⊢
        dsimp only at h ⊢
        rcases haz : a.authorize c rq args' with _ | e
        · rw [haz] at h
          dsimp only at h ⊢
          have h := (List.mem_cons.mp h).resolve_left (by simp)
          unfold serveCall at h ⊢
          simp only [List.mem_singleton, Event.call.injEq] at h
          obtain ⟨rfl, rfl⟩ := h
          exact ⟨rfl, haz, rfl, rfl⟩
        · rw [haz] at h; simp at h
      all_goals (rw [hr] at h; simp at h)
  · rw [hau] at h; simp at h

/-- C119: a request that the authenticator refuses is answered without looking at the
implementation, the arguments or the page of the operation. -/
theorem refused_is_alone (env : Env V C) (a : Auth V C) (ha : env.auth = some a) (op : Op V)
    (rq : Request) (w : W) (ctx : C) (e : PErr) (h : a.authenticate rq = (ctx, some e)) :
    (serveOp env op rq w).1 = [.authenticate] ∧
      ∀ (impl : Impl V C) std codec encoder page (op' : Op V),
        serveOp { env with impl, std, codec, encoder, page } op' rq w = serveOp env op rq w := by
  unfold serveOp
  rw [ha]
  dsimp only
  rw [h]
  refine ⟨rfl, fun _ _ _ _ _ _ => ?_⟩
  dsimp only
  unfold Env.redact
  rw [ha]

/-- C119: arguments that the authenticator refuses are answered without calling the
implementation. -/
theorem unauthorized_is_alone (env : Env V C) (a : Auth V C) (ha : env.auth = some a) (op : Op V)
    (rq : Request) (w : W) (ctx : C) (args : Cells V) (e : PErr)
    (h1 : a.authenticate rq = (ctx, none)) (hp : wantsPage op rq = false)
    (h2 : readArgs env.std env.codec op rq = .ok args) (h3 : a.authorize ctx rq args = some e) :
    serveOp env op rq w =
      ([.authenticate, .authorize ctx args], handleW (a.redact ctx) env.scenarios e w) := by
  unfold serveOp
  rw [ha]
  dsimp only
  rw [h1]
  dsimp only
  unfold serveKnown
  rw [hp, h2]
  simp only [Bool.false_eq_true, if_false]
  unfold serveArgs
  rw [ha]
  dsimp only
  rw [h3]
  dsimp only
  unfold Env.redact
  rw [ha]

/-- C119: without an authenticator nothing is asked, and the implementation is called at most
once, with the context of the request and the arguments that were read. -/
theorem no_authenticator (env : Env V C) (ha : env.auth = none) (op : Op V) (rq : Request) (w : W) :
    (serveOp env op rq w).1 = [] ∨
      ∃ args, readArgs env.std env.codec op rq = .ok args ∧
        (serveOp env op rq w).1 = [.call env.ctx args] := by
  unfold serveOp
  rw [ha]
  dsimp only
  unfold serveKnown
  split
  · exact Or.inl rfl
  · rcases hr : readArgs env.std env.codec op rq with args' | m | code | _
    · refine Or.inr ⟨args', rfl, ?_⟩
      dsimp only
      unfold serveArgs
      rw [ha]
      rfl
    all_goals exact Or.inl rfl

/-- The function is called when the authenticator accepts, so that the theorems above are not
about nothing. -/
theorem accepted_is_called (env : Env V C) (a : Auth V C) (ha : env.auth = some a) (op : Op V)
    (rq : Request) (w : W) (ctx : C) (args : Cells V)
    (h1 : a.authenticate rq = (ctx, none)) (hp : wantsPage op rq = false)
    (h2 : readArgs env.std env.codec op rq = .ok args) (h3 : a.authorize ctx rq args = none) :
    (serveOp env op rq w).1 = [.authenticate, .authorize ctx args, .call ctx args] := by
  unfold serveOp
  rw [ha]
  dsimp only
  rw [h1]
  dsimp only
  unfold serveKnown
  rw [hp, h2]
  simp only [Bool.false_eq_true, if_false]
  unfold serveArgs
  rw [ha]
  dsimp only
  rw [h3]
  rfl

/-! ## C120, C125: what is registered -/

theorem inForce_append (a b : List (Str × Str × Handler)) (m p : Str) :
    inForce (a ++ b) m p = (inForce b m p).or (inForce a m p) := by
  unfold inForce
  rw [List.reverse_append, List.find?_append]
  cases b.reverse.find? _ <;> rfl

theorem inForce_none {a : List (Str × Str × Handler)} {m p : Str}
    (h : ∀ r ∈ a, r.1 = m → r.2.1 ≠ p) : inForce a m p = none := by
  unfold inForce
  rw [Option.map_eq_none_iff, List.find?_eq_none]
  intro r hr
  have := h r (List.mem_reverse.mp hr)
  simpa using this

private theorem inForce_single (k p m q : Str) (h : Handler) :
    inForce [(k, p, h)] m q = if k = m ∧ p = q then some h else none := by
  unfold inForce
  by_cases e : k = m ∧ p = q
  · rw [if_pos e, List.reverse_singleton, List.find?_cons_of_pos (by simpa using e)]; rfl
  · rw [if_neg e, List.reverse_singleton, List.find?_cons_of_neg (by simpa using e)]; rfl

private theorem inForce_nil (m q : Str) : inForce [] m q = none := rfl

theorem attach_path {r : Resource} {x : Str × Str × Handler} (h : x ∈ attachResource r) :
    x.2.1 = r.path := by
  unfold attachResource attachOp at h
  simp only [List.mem_append, List.mem_flatten, List.mem_map] at h
  rcases h with (⟨l, ⟨m, _, rfl⟩, hx⟩ | hx) | hx
  · simp only [List.mem_append] at hx
    rcases hx with hx | hx
    · split at hx <;> simp at hx; rw [hx]
    · simp at hx; rw [hx]
  · split at hx <;> simp at hx; rw [hx]
  · split at hx <;> simp at hx; rw [hx]

/-- What is in force for a resource by itself, when no method comes twice. -/
private theorem attach_inForce (r : Resource) (hd : r.methods.Nodup) (m : Str)
    (hm : m = mOptions → ¬ (mGet ∈ r.methods ∧ mOptions ∈ r.methods)) :
    inForce (attachResource r) m r.path =
      if m ∈ r.methods then some (.op m r.path)
      else if m = mOptions then some (.options r.path)
      else if m = mGet then some (.form r.path)
      else none := by
  have hgo : mGet ≠ mOptions := by decide
  have hops : ∀ ms : List Str,
      (m = mOptions → ¬ (mGet ∈ ms ∧ mOptions ∈ ms)) →
      inForce ((ms.map (attachOp r.path)).flatten) m r.path =
        if m ∈ ms then some (.op m r.path)
        else if m = mOptions ∧ mGet ∈ ms then some (.optionsFor r.path) else none := by
    intro ms
    induction ms with
    | nil => intro _; simp [inForce]
    | cons x ms ih =>
      intro hm'
      rw [List.map_cons, List.flatten_cons, inForce_append, ih (fun h hc => hm' h
        ⟨List.mem_cons_of_mem _ hc.1, List.mem_cons_of_mem _ hc.2⟩)]
      by_cases h1 : m ∈ ms
      · rw [if_pos h1, if_pos (List.mem_cons_of_mem _ h1)]; rfl
      · rw [if_neg h1]
        by_cases hxm : x = m
        · subst hxm
          rw [if_pos (List.mem_cons_self ..)]
          have h2 : ¬ (x = mOptions ∧ mGet ∈ ms) := fun hc =>
            hm' hc.1 ⟨List.mem_cons_of_mem _ hc.2, by rw [← hc.1]; exact List.mem_cons_self ..⟩
          rw [if_neg h2, Option.none_or]
          unfold attachOp
          rw [inForce_append, inForce_single, if_pos ⟨rfl, rfl⟩]; rfl
        · have h2 : m ∉ x :: ms := by
            simp only [List.mem_cons, not_or]; exact ⟨fun e => hxm e.symm, h1⟩
          rw [if_neg h2]
          have hlast : inForce (attachOp r.path x) m r.path =
              if m = mOptions ∧ x = mGet then some (.optionsFor r.path) else none := by
            unfold attachOp
            rw [inForce_append]
            rw [inForce_single, if_neg (fun h => hxm h.1), Option.none_or]
            by_cases hxg : x = mGet
            · rw [if_pos hxg]
              by_cases hmo : m = mOptions
              · rw [if_pos ⟨hmo, hxg⟩, inForce_single, if_pos ⟨hmo.symm, rfl⟩]
              · rw [if_neg (fun h => hmo h.1), inForce_single, if_neg (fun h => hmo h.1.symm)]
            · rw [if_neg hxg, if_neg (fun h => hxg h.2)]; rfl
          rw [hlast]
          by_cases hmo : m = mOptions
          · by_cases hg : mGet ∈ ms
            · have h3 : m = mOptions ∧ mGet ∈ x :: ms := ⟨hmo, List.mem_cons_of_mem _ hg⟩
              rw [if_pos ⟨hmo, hg⟩, if_pos h3]; rfl
            · rw [if_neg (fun h => hg h.2), Option.none_or]
              by_cases hxg : x = mGet
              · rw [if_pos ⟨hmo, hxg⟩, if_pos ⟨hmo, by rw [hxg]; exact List.mem_cons_self ..⟩]
              · rw [if_neg (fun h => hxg h.2), if_neg]
                rintro ⟨_, h⟩
                rcases List.mem_cons.mp h with h | h
                · exact hxg h.symm
                · exact hg h
          · rw [if_neg (fun h => hmo h.1), if_neg (fun h => hmo h.1), if_neg (fun h => hmo h.1)]; rfl
  unfold attachResource
  rw [inForce_append, inForce_append, hops r.methods hm]
  by_cases h1 : m ∈ r.methods
  · rw [if_pos h1, if_pos h1]
    have ho : inForce (if mOptions ∈ r.methods then [] else
        [(mOptions, r.path, Handler.options r.path)]) m r.path = none := by
      split
      · rfl
      · next hn =>
        refine inForce_none ?_
        intro x hx e
        simp at hx
        rw [hx] at e
        exact absurd (by rw [show mOptions = m from e]; exact h1) hn
    have hg : inForce (if mGet ∈ r.methods then [] else
        [(mGet, r.path, Handler.form r.path)]) m r.path = none := by
      split
      · rfl
      · next hn =>
        refine inForce_none ?_
        intro x hx e
        simp at hx
        rw [hx] at e
        exact absurd (by rw [show mGet = m from e]; exact h1) hn
    rw [ho, hg]; rfl
  · rw [if_neg h1, if_neg h1]
    by_cases hmo : m = mOptions
    · subst hmo
      have hg : inForce (if mGet ∈ r.methods then [] else
          [(mGet, r.path, Handler.form r.path)]) mOptions r.path = none := by
        split
        · rfl
        · refine inForce_none ?_
          intro x hx e
          simp at hx
          rw [hx] at e
          exact absurd e hgo
      rw [hg, if_neg h1, if_pos rfl, inForce_single, if_pos ⟨rfl, rfl⟩]; rfl
    · have h3 : ¬ (m = mOptions ∧ mGet ∈ r.methods) := fun h => hmo h.1
      rw [if_neg h3, if_neg hmo]
      have ho : inForce (if mOptions ∈ r.methods then [] else
          [(mOptions, r.path, Handler.options r.path)]) m r.path = none := by
        split
        · rfl
        · refine inForce_none ?_
          intro x hx e
          simp at hx
          rw [hx] at e
          exact absurd e.symm hmo
      rw [ho]
      by_cases hmg : m = mGet
      · subst hmg
        rw [if_neg h1, if_pos rfl, inForce_single, if_pos ⟨rfl, rfl⟩]; rfl
      · rw [if_neg hmg]
        have hg : inForce (if mGet ∈ r.methods then [] else
            [(mGet, r.path, Handler.form r.path)]) m r.path = none := by
          split
          · rfl
          · refine inForce_none ?_
            intro x hx e
            simp at hx
            rw [hx] at e
            exact absurd e.symm hmg
        rw [hg]; rfl

/-- C125, what holds: in whatever order Go ranges over the paths and the methods, a path
answers a method with the operation for it, else OPTIONS with the empty answer and GET with the
page; except OPTIONS where there are operations for both GET and OPTIONS. -/
theorem handlers_partial (examples : Bool) (rs : List Resource) (hp : (rs.map Resource.path).Nodup)
    (r : Resource) (hr : r ∈ rs) (hd : r.methods.Nodup) (m : Str)
    (hm : m = mOptions → ¬ (mGet ∈ r.methods ∧ mOptions ∈ r.methods))
    (hk : m ∈ r.methods ∨ m = mOptions ∨ m = mGet) :
    inForce (registrations examples rs) m r.path = some (
      if m ∈ r.methods then .op m r.path
      else if m = mOptions then .options r.path
      else .form r.path) := by
  unfold registrations
  rw [inForce_append]
  have key : inForce ((rs.map attachResource).flatten) m r.path = inForce (attachResource r) m r.path := by
    clear hk
    induction rs with
    | nil => simp at hr
    | cons x xs ih =>
      rw [List.map_cons, List.nodup_cons] at hp
      rw [List.map_cons, List.flatten_cons, inForce_append]
      rcases List.mem_cons.mp hr with rfl | hr'
      · rw [inForce_none (a := (xs.map attachResource).flatten)]
        · rfl
        · intro y hy _ e
          obtain ⟨l, hl, hy⟩ := List.mem_flatten.mp hy
          obtain ⟨z, hz, rfl⟩ := List.mem_map.mp hl
          rw [attach_path hy] at e
          exact hp.1 (by rw [← e]; exact List.mem_map_of_mem hz)
      · rw [ih hp.2 hr', inForce_none (a := attachResource x), Option.or_none]
        intro y hy _ e
        rw [attach_path hy] at e
        exact hp.1 (by rw [e]; exact List.mem_map_of_mem hr')
  rw [key, attach_inForce r hd m hm]
  by_cases h1 : m ∈ r.methods
  · rw [if_pos h1, if_pos h1]; rfl
  · by_cases h2 : m = mOptions
    · rw [if_neg h1, if_neg h1, if_pos h2, if_pos h2]; rfl
    · by_cases h3 : m = mGet
      · rw [if_neg h1, if_neg h1, if_neg h2, if_neg h2, if_pos h3]; rfl
      · exact absurd hk (by simp [h1, h2, h3])

end Verif.Rest.Serve
