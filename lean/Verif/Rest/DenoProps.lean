import Verif.Rest.DenoModel
import Mathlib.Data.List.Nodup
/-!
# C192, C193: bodies and answers through Deno
-/
namespace Verif.Rest.Deno

/-- The bytes that reads returned. -/
def output : List Res → List Byte
  | [] => []
  | .bytes bs :: rs => bs ++ output rs
  | _ :: rs => output rs

/-- What a stream has yet to give. -/
def left (s : Stream) : List Byte := s.data ++ s.body.chunks.flatten

theorem read_left (s : Stream) (n : Nat) : output [(read s n).2] ++ left (read s n).1 = left s := by
  unfold read
  split
  · simp only [output, left, List.append_nil]
    rw [← List.append_assoc, List.take_append_drop]
  · rename_i h
    have hd : s.data = [] := by
      cases e : s.data with
      | nil => rfl
      | cons a l => rw [e] at h; simp at h
    split
    · split <;> rfl
    · rename_i chunk rest hc
      simp only [output, left, hd, hc, copyBytes, List.append_nil, List.nil_append, List.flatten_cons]
      split
      · rw [List.take_of_length_le (l := chunk.drop _) (by simp), ← List.append_assoc]
        congr 1
        rw [List.length_take]
        by_cases h : n ≤ chunk.length
        · rw [Nat.min_eq_left h, List.take_append_drop]
        · rw [Nat.min_eq_right (by omega), List.take_of_length_le (l := chunk) (by omega), List.drop_length, List.append_nil]
      · rename_i h
        rw [List.length_take] at h
        rw [List.take_of_length_le (by omega), List.nil_append]

theorem output_cons (r : Res) (rs : List Res) : output (r :: rs) = output [r] ++ output rs := by
  cases r <;> simp [output]

theorem reads_left (ns : List Nat) : ∀ s : Stream, output (reads s ns).2 ++ left (reads s ns).1 = left s := by
  induction ns with
  | nil => intro s; rfl
  | cons n ns ih =>
    intro s
    show output ((read s n).2 :: (reads (read s n).1 ns).2) ++ left (reads (read s n).1 ns).1 = _
    rw [output_cons, List.append_assoc, ih, read_left]

/-- **C192** (order): whatever the chunks of a body and the buffers it is read into, what was read so far is the beginning
of the body. -/
theorem reads_in_order (src : Source) (ns : List Nat) : output (reads (opened src) ns).2 <+: src.chunks.flatten :=
  ⟨_, reads_left ns (opened src)⟩

/-- **C192** (contract of io.Reader): no read returns more than its buffer holds. -/
theorem read_fits (s : Stream) (n : Nat) (bs : List Byte) (h : (read s n).2 = .bytes bs) : bs.length ≤ n := by
  unfold read at h
  split at h
  · simp only [Res.bytes.injEq] at h
    rw [← h, List.length_take]; omega
  · split at h
    · split at h <;> cases h
    · simp only [Res.bytes.injEq, copyBytes] at h
      rw [← h, List.length_take]; omega

theorem read_end (s : Stream) (n : Nat) (h : ∀ bs, (read s n).2 ≠ .bytes bs) :
    (read s n).1 = s ∧ left s = [] ∧ (read s n).2 = if s.body.fails then .error else .eof := by
  unfold read at h ⊢
  split
  · rename_i hd; simp only [hd, if_true] at h; exact absurd rfl (h _)
  · rename_i hd
    simp only [hd, if_false] at h
    have hd : s.data = [] := by
      cases e : s.data with
      | nil => rfl
      | cons a l => rw [e] at hd; simp at hd
    cases hc : s.body.chunks with
    | nil =>
      refine ⟨?_, by simp [left, hd, hc], ?_⟩ <;> dsimp only <;> split <;> rfl
    | cons c r => rw [hc] at h; exact absurd rfl (h _)

theorem reads_append (ms ns : List Nat) : ∀ s : Stream,
    reads s (ms ++ ns) = ((reads (reads s ms).1 ns).1, (reads s ms).2 ++ (reads (reads s ms).1 ns).2) := by
  induction ms with
  | nil => intro s; rfl
  | cons m ms ih =>
    intro s
    show ((reads (read s m).1 (ms ++ ns)).1, (read s m).2 :: (reads (read s m).1 (ms ++ ns)).2) = _
    rw [ih]; rfl

theorem reads_fails (ns : List Nat) : ∀ s : Stream, (reads s ns).1.body.fails = s.body.fails := by
  induction ns with
  | nil => intro s; rfl
  | cons n ns ih =>
    intro s
    show (reads (read s n).1 ns).1.body.fails = _
    rw [ih]
    unfold read
    split
    · rfl
    · split
      · split <;> rfl
      · rfl

/-- **C192** (end): the end is reported only when the whole body was read, an error only if the body failed, and after
all the chunks that arrived were read. -/
theorem end_is_the_end (src : Source) (ns : List Nat) (n : Nat)
    (h : ∀ bs, (read (reads (opened src) ns).1 n).2 ≠ .bytes bs) :
    output (reads (opened src) ns).2 = src.chunks.flatten ∧
    (read (reads (opened src) ns).1 n).2 = if src.fails then .error else .eof := by
  obtain ⟨_, h2, h3⟩ := read_end _ n h
  have := reads_left ns (opened src)
  rw [h2, List.append_nil] at this
  refine ⟨this, ?_⟩
  rw [h3, reads_fails]; rfl

/-- How far a stream is from its end. -/
def togo (s : Stream) : Nat := s.data.length + s.body.chunks.flatten.length + s.body.chunks.length

theorem read_togo (s : Stream) (n : Nat) (hn : 0 < n) (bs : List Byte) (h : (read s n).2 = .bytes bs) :
    togo (read s n).1 < togo s := by
  have hl := congrArg List.length (read_left s n)
  rw [h] at hl
  simp only [output, left, List.length_append, List.append_nil] at hl
  unfold togo
  unfold read at h hl ⊢
  split at h
  · rename_i hd
    simp only [hd, if_true] at hl ⊢
    simp only [List.length_drop] at hl ⊢
    omega
  · rename_i hd
    simp only [hd, if_false] at hl ⊢
    split at h
    · split at h <;> cases h
    · rename_i c r hc
      simp only [hc] at hl ⊢
      simp only [List.flatten_cons, List.length_append, List.length_cons] at hl ⊢
      omega

/-- **C192** (progress): reading with buffers that are not empty comes to the end, after as many reads as the body has
bytes and chunks. -/
theorem reads_end (src : Source) (ns : List Nat) (hn : ∀ n ∈ ns, 0 < n)
    (hlen : src.chunks.flatten.length + src.chunks.length < ns.length) :
    (if src.fails then Res.error else Res.eof) ∈ (reads (opened src) ns).2 := by
  have key : ∀ (ns : List Nat) (s : Stream), (∀ n ∈ ns, 0 < n) → togo s < ns.length →
      (if s.body.fails then Res.error else Res.eof) ∈ (reads s ns).2 := by
    intro ns
    induction ns with
    | nil => intro s _ h; simp at h
    | cons n ns ih =>
      intro s hn h
      show _ ∈ (read s n).2 :: (reads (read s n).1 ns).2
      by_cases hb : ∃ bs, (read s n).2 = .bytes bs
      · obtain ⟨bs, hb⟩ := hb
        have := read_togo s n (hn n (by simp)) bs hb
        have hf : (read s n).1.body.fails = s.body.fails := reads_fails [n] s
        rw [← hf]
        exact List.mem_cons_of_mem _ (ih _ (fun m hm => hn m (by simp [hm])) (by simp only [List.length_cons] at h; omega))
      · obtain ⟨_, _, h3⟩ := read_end s n (fun bs e => hb ⟨bs, e⟩)
        rw [h3]; exact List.mem_cons_self
  exact key ns (opened src) hn (by simpa [togo, opened] using hlen)

example : (reads (opened ⟨[[1, 2, 3], [], [4]], false⟩) [2, 0, 5, 1, 1, 9]).2 =
    [.bytes [1, 2], .bytes [], .bytes [3], .bytes [], .bytes [4], .eof] := by decide

/-! ## C193 -/

/-- The values a Go handler finds under a name. -/
def valuesOf (h : List (String × List String)) (k : String) : List String :=
  (h.filter (fun p => p.1 = k)).flatMap (·.2)

theorem valuesOf_set (h : List (String × List String)) (k v j : String) :
    valuesOf (setHeader h k v) j = if j = k then [v] else valuesOf h j := by
  unfold valuesOf setHeader
  rw [List.filter_append, List.flatMap_append, List.filter_filter]
  by_cases e : j = k
  · subst e
    rw [if_pos rfl]
    have : h.filter (fun p => decide (p.1 = j) && decide (p.1 ≠ j)) = [] := by
      rw [List.filter_eq_nil_iff]; intro p _; simp
    rw [this]; simp
  · rw [if_neg e]
    have h1 : List.filter (fun p : String × List String => decide (p.1 = j)) [(k, [v])] = [] := by
      simp [Ne.symm e]
    have h2 : h.filter (fun p => decide (p.1 = j) && decide (p.1 ≠ k)) = h.filter (fun p => decide (p.1 = j)) := by
      apply List.filter_congr; intro p _
      by_cases hp : p.1 = j <;> simp [hp, e]
    rw [h1, h2]; simp

theorem valuesOf_fold (canon : String → String) : ∀ (l : List (String × String)) (h : List (String × List String)) (j : String),
    (l.map (fun p => canon p.1)).Nodup →
    valuesOf (l.foldl (fun h p => setHeader h (canon p.1) p.2) h) j =
      ((l.find? (fun p => canon p.1 = j)).map (fun p => [p.2])).getD (valuesOf h j)
  | [], h, j, _ => rfl
  | p :: l, h, j, hn => by
    rw [List.map_cons, List.nodup_cons] at hn
    rw [List.foldl_cons, valuesOf_fold canon l _ j hn.2, valuesOf_set]
    by_cases e : canon p.1 = j
    · have : l.find? (fun p => canon p.1 = j) = none := by
        rw [List.find?_eq_none]
        intro q hq h
        exact hn.1 (by rw [e]; exact List.mem_map.2 ⟨q, hq, by simpa using h⟩)
      rw [this, List.find?_cons_of_pos (by simp [e])]
      simp [e]
    · rw [List.find?_cons_of_neg (by simp [e]), if_neg (fun h => e h.symm)]

/-- **C193** (request): the handler is given the method, the URL, the body and every header of the request. -/
theorem request_arrives (canon : String → String) (f : Fetch) (hn : (f.headers.map (fun p => canon p.1)).Nodup) :
    (request canon f).method = f.method ∧ (request canon f).url = f.url ∧
    (request canon f).body = f.body.map opened ∧
    (∀ k v, (k, v) ∈ f.headers → valuesOf (request canon f).header (canon k) = [v]) ∧
    ∀ j, j ∉ f.headers.map (fun p => canon p.1) → valuesOf (request canon f).header j = [] := by
  refine ⟨rfl, rfl, rfl, fun k v hk => ?_, fun j hj => ?_⟩
  · show valuesOf (f.headers.foldl _ []) _ = _
    rw [valuesOf_fold canon _ _ _ hn]
    have key : ∀ l : List (String × String), (l.map (fun p => canon p.1)).Nodup → (k, v) ∈ l →
        l.find? (fun p => canon p.1 = canon k) = some (k, v) := by
      intro l
      induction l with
      | nil => intro _ h; cases h
      | cons p l ih =>
        intro hn hm
        rw [List.map_cons, List.nodup_cons] at hn
        rcases List.mem_cons.1 hm with rfl | hm
        · rw [List.find?_cons_of_pos (by simp)]
        · rw [List.find?_cons_of_neg, ih hn.2 hm]
          intro h
          exact hn.1 (List.mem_map.2 ⟨(k, v), hm, (by simpa using h : canon p.1 = canon k).symm⟩)
    rw [key _ hn hk]; rfl
  · show valuesOf (f.headers.foldl _ []) _ = _
    rw [valuesOf_fold canon _ _ _ hn]
    have : f.headers.find? (fun p => canon p.1 = j) = none := by
      rw [List.find?_eq_none]
      intro q hq h
      exact hj (List.mem_map.2 ⟨q, hq, by simpa using h⟩)
    rw [this]; rfl

example : (([("accept", "*/*"), ("x-a", "1")] : List (String × String)).map (fun p => id p.1)).Nodup := by decide

/-- The answer of the handler reaches the client. -/
def Delivered (handler : Req → Recorded) (canon : String → String) (f : Fetch) : Prop :=
  serve canon handler f = some ⟨(handler (request canon f)).code, (handler (request canon f)).header,
    (handler (request canon f)).body⟩

/-- **C193**, exactly: the answer arrives if and only if the handler sets no header and its status is from 200 to 599 and
one that has a body. -/
theorem delivered_iff (handler : Req → Recorded) (canon : String → String) (f : Fetch) :
    Delivered handler canon f ↔ (handler (request canon f)).header = [] ∧
      200 ≤ (handler (request canon f)).code ∧ (handler (request canon f)).code ≤ 599 ∧
      (handler (request canon f)).code ≠ 204 ∧ (handler (request canon f)).code ≠ 205 ∧
      (handler (request canon f)).code ≠ 304 := by
  unfold Delivered serve respond newResponse nullBody
  generalize handler (request canon f) = r
  simp only [List.mem_cons, List.not_mem_nil, or_false, not_or]
  constructor
  · intro h
    split at h
    · rename_i hc
      simp only [Option.some.injEq, Response.mk.injEq] at h
      exact ⟨h.2.1.symm, hc.1, hc.2.1, hc.2.2.2.2.1, hc.2.2.2.2.2.1, hc.2.2.2.2.2.2⟩
    · cases h
  · rintro ⟨h1, h2, h3, h4, h5, h6⟩
    rw [if_pos ⟨h2, h3, by omega, by omega, h4, h5, h6⟩, h1]

/-- **C193**, partial: status and body arrive, for the statuses with a body. -/
theorem status_and_body_partial (handler : Req → Recorded) (canon : String → String) (f : Fetch)
    (h : 200 ≤ (handler (request canon f)).code ∧ (handler (request canon f)).code ≤ 599)
    (h' : (handler (request canon f)).code ∉ [204, 205, 304]) :
    ∃ r, serve canon handler f = some r ∧ r.status = (handler (request canon f)).code ∧
      r.body = (handler (request canon f)).body := by
  refine ⟨_, if_pos ⟨h.1, h.2, ?_⟩, rfl, rfl⟩
  simp only [nullBody, List.mem_cons, List.not_mem_nil, or_false, not_or] at h' ⊢
  refine ⟨by omega, by omega, h'⟩

/-- **C193** fails: no header of an answer arrives. -/
theorem headers_fails (handler : Req → Recorded) (canon : String → String) (f : Fetch) (r : Response)
    (h : serve canon handler f = some r) : r.header = [] := by
  unfold serve respond newResponse at h
  split at h
  · simp only [Option.some.injEq] at h; rw [← h]
  · cases h

/-- **C193** fails: a handler that answers 204, as functions without results do, ends the process. -/
theorem no_content_fails (handler : Req → Recorded) (canon : String → String) (f : Fetch)
    (h : (handler (request canon f)).code = 204) : serve canon handler f = none := by
  unfold serve respond newResponse
  rw [if_neg (by simp [h, nullBody])]

/-- **C193** fails: the address of the client is never known. -/
theorem remote_fails (canon : String → String) (f : Fetch) : (request canon f).remote = "<undefined>" := rfl

example : ∃ r, serve id (fun r => ⟨200, [("Content-Type", ["text/plain"])], if r.method = "GET" then [104, 105] else []⟩)
    ⟨"GET", "http://a/", [], none⟩ = some r ∧ r = ⟨200, [], [104, 105]⟩ := ⟨_, rfl, by decide⟩
example : (fun _ => ⟨204, [], []⟩ : Req → Recorded) (request id ⟨"DELETE", "http://a/", [], none⟩) = ⟨204, [], []⟩ := rfl

end Verif.Rest.Deno
