import Verif.Rest.PipeProps3
/-!
# C126: results that are streams
-/
namespace Verif.Rest.Serve

open Verif.Rest Verif.Rest.Spec

variable {V : Type}

/-- Shorthand for texts. -/
private def S (s : String) : Str := s.toList

/-- One event of server-sent events. -/
def eventText (d : Str) : Str := "data: ".toList ++ d ++ ['\n', '\n']

/-- The events a client of server-sent events should see for these values, in order. -/
def eventsText (enc : V → Str) (vs : List V) : Str := (vs.map fun v => eventText (enc v)).flatten

private theorem sseItems_all (enc : Item V → Option Str) (fail : W → Option W) (f : Item V → Str)
    (is : List (Item V)) (h : ∀ i ∈ is, enc i = some (f i)) (w : W) (hs : ∃ hd, w.sent = some (200, hd)) :
    ∃ w', sseItems enc fail is w = some w' ∧ w'.sent = w.sent ∧ w'.body = w.body ++ eventsText f is := by
  induction is generalizing w with
  | nil => exact ⟨w, rfl, rfl, by rw [eventsText, List.map_nil, List.flatten_nil, List.append_nil]⟩
  | cons i is ih =>
    unfold sseItems
    rw [h i (List.mem_cons_self ..)]
    dsimp only
    obtain ⟨hd, hs⟩ := hs
    have h1 : (w.write ("data: ".toList ++ f i ++ ['\n', '\n'])).sent = w.sent := by
      unfold W.write; rw [hs]; rfl
    have h2 : (w.write ("data: ".toList ++ f i ++ ['\n', '\n'])).body =
        w.body ++ ("data: ".toList ++ f i ++ ['\n', '\n']) := by
      unfold W.write; rw [hs]
      dsimp only [Option.getD_some]
      rw [if_neg (by omega)]
    obtain ⟨w', e1, e2, e3⟩ := ih (fun x hx => h x (List.mem_cons_of_mem _ hx))
      (w.write ("data: ".toList ++ f i ++ ['\n', '\n'])) ⟨hd, by rw [h1, hs]⟩
    refine ⟨w', e1, by rw [e2, h1], ?_⟩
    rw [e3, h2, List.append_assoc]
    rfl

/-- C126: an iterator asked for as server-sent events by a GET sends every value, each once,
in order. -/
theorem iterator_events (fail : PErr → W → Option W) (enc : Item V → Option Str)
    (encAll : List (Item V) → Option Str) (encodeErr : PErr) (accept : Str) (vs : List V)
    (f : Item V → Str) (henc : ∀ v ∈ vs, enc (.one v) = some (f (.one v)))
    (ha : contains accept "text/event-stream".toList = true) :
    ∃ w', serveStream fail enc encAll encodeErr "GET".toList accept (.seq vs) {} = some w' ∧
      (∃ h, w'.sent = some (200, h) ∧ h.get "Content-Type".toList = "text/event-stream".toList) ∧
      w'.body = eventsText (fun v => f (.one v)) vs := by
  have hm : streamMode "GET".toList accept (Stream.seq vs) = .ok .sse := by
    unfold streamMode
    dsimp only
    rw [if_pos ha, if_neg (by decide)]
  unfold serveStream
  rw [hm]
  dsimp only [iterate]
  obtain ⟨w', h1, h2, h3⟩ := sseItems_all enc (fail encodeErr) f (vs.map .one)
    (by
      intro i hi
      obtain ⟨v, hv, rfl⟩ := List.mem_map.mp hi
      exact henc v hv) (setupHeaders {} .sse) ⟨_, rfl⟩
  refine ⟨w', h1, ⟨_, by rw [h2]; rfl, by decide⟩, ?_⟩
  rw [h3]
  have : (setupHeaders {} .sse).body = [] := rfl
  rw [this, List.nil_append]
  unfold eventsText
  rw [List.map_map]
  rfl

/-- C126: an iterator not asked for as events sends the array of every value, each once, in
order; or 204 if there is none. -/
theorem iterator_array (fail : PErr → W → Option W) (enc : Item V → Option Str)
    (encAll : List (Item V) → Option Str) (encodeErr : PErr) (method accept : Str) (vs : List V) (t : Str)
    (henc : encAll (vs.map .one) = some t)
    (ha : contains accept "text/event-stream".toList = false) :
    ∃ w', serveStream fail enc encAll encodeErr method accept (.seq vs) {} = some w' ∧
      if vs = [] then (∃ h, w'.sent = some (204, h)) ∧ w'.body = []
      else (∃ h, w'.sent = some (200, h) ∧ h.get "Content-Type".toList = "application/json".toList) ∧
        w'.body = t := by
  have hm : streamMode method accept (Stream.seq vs) = .ok .json := by
    unfold streamMode
    dsimp only
    rw [ha, if_neg Bool.false_ne_true]
  unfold serveStream
  rw [hm]
  dsimp only [iterate]
  by_cases hv : vs = []
  · subst hv
    refine ⟨_, rfl, ?_⟩
    rw [if_pos rfl]
    exact ⟨⟨_, rfl⟩, rfl⟩
  · rw [if_neg (by simpa using hv), henc]
    refine ⟨_, rfl, ?_⟩
    rw [if_neg hv]
    refine ⟨⟨_, rfl, ?_⟩, ?_⟩
    · show Hdr.get (Hdr.put (Hdr.put [] "Content-Type".toList "application/json".toList)
        "Content-Length".toList _) _ = _
      rw [get_put_ne _ _ _ _ (by decide), get_put]
    · rfl

/-- C126: pairs with distinct keys are collected into one object with all of them. -/
theorem pairs_collected_partial (method : Str) (kvs : List (Str × V)) (hd : (kvs.map Prod.fst).Nodup) :
    (iterate method false (.seq2 kvs)).items = [.object kvs] := by
  have : ∀ (kvs m : List (Str × V)), ((m ++ kvs).map Prod.fst).Nodup →
      kvs.foldl (fun m kv => mapPut m kv.1 kv.2) m = m ++ kvs := by
    intro kvs
    induction kvs with
    | nil => simp
    | cons kv kvs ih =>
      intro m h
      rw [List.foldl_cons]
      have hn : mapPut m kv.1 kv.2 = m ++ [kv] := by
        unfold mapPut
        rw [if_neg]
        intro hc
        rw [List.any_eq_true] at hc
        obtain ⟨e, he, h1⟩ := hc
        rw [List.map_append, List.map_cons, List.nodup_append] at h
        exact h.2.2 e.1 (List.mem_map_of_mem he) kv.1 (List.mem_cons_self ..) (by simpa using h1)
      rw [hn, ih (m ++ [kv]) (by simpa using h)]
      simp
  unfold iterate
  dsimp only
  rw [if_neg (by simp), this kvs [] (by simpa using hd), List.nil_append]

example : (iterate (S "GET") false (.seq2 [(S "a", 1), (S "b", 2)])).items =
    [.object [(S "a", 1), (S "b", 2)]] := pairs_collected_partial _ _ (by decide)

/-- C126: every pair an iterator yields is sent. -/
def PairsClaim : Prop :=
  ∀ (kvs : List (Str × Nat)), ∀ kv ∈ kvs, ∃ fs, Item.object fs ∈ (iterate (S "GET") false (.seq2 kvs)).items ∧ kv ∈ fs

/-- C126 fails: a pair whose key comes again is lost, and no pair at all is sent as one empty
object, not as nothing. -/
theorem pairs_fails : ¬ PairsClaim ∧ (iterate (S "GET") false (.seq2 ([] : List (Str × Nat)))).items =
    [.object []] := by
  refine ⟨fun h => ?_, by decide⟩
  obtain ⟨fs, h1, h2⟩ := h [(S "a", 1), (S "a", 2)] (S "a", 1) (by decide)
  have : (iterate (S "GET") false (.seq2 [(S "a", 1), (S "a", 2)])).items = [.object [(S "a", 2)]] := by decide
  rw [this] at h1
  simp at h1
  subst h1
  exact absurd h2 (by decide)

/-- C126: every value a channel delivers is sent. -/
def ChannelClaim : Prop :=
  ∀ (sse : Bool) (vs : List Nat), (iterate (S "GET") sse (.chan vs)).items = vs.map .one

/-- C126 fails for every channel: a GET sends its first value only, a POST its last, whether as
events or not; other methods none. -/
theorem channel_sends_one (sse : Bool) (v : V) (vs : List V) (last : V) (hl : (v :: vs).getLast? = some last) :
    (iterate "GET".toList sse (.chan (v :: vs))).items = [.one v] ∧
    (iterate "POST".toList sse (.chan (v :: vs))).items = [.one last] ∧
    ∀ m, m ≠ "GET".toList → m ≠ "POST".toList → (iterate m sse (.chan (v :: vs))).items = [] ∧
      (iterate m sse (.chan (v :: vs))).err ≠ none := by
  refine ⟨?_, ?_, ?_⟩
  · unfold iterate; dsimp only; rw [if_pos rfl]
  · unfold iterate; dsimp only; rw [if_neg (by decide), if_pos rfl, hl]
  · intro m h1 h2
    unfold iterate
    dsimp only
    rw [if_neg h1, if_neg h2]
    exact ⟨rfl, Option.some_ne_none _⟩

/-- C126 is false for channels. -/
theorem channel_fails : ¬ ChannelClaim := by
  intro h
  exact absurd (h true [1, 2]) (by decide)

/-- C126 fails: a channel that is closed without a value is answered 204 as an array, but 200
as events, because the status was sent before the channel was read. -/
theorem empty_channel_status (fail : PErr → W → Option W) (enc : Item V → Option Str)
    (encAll : List (Item V) → Option Str) (encodeErr : PErr) :
    (∃ w' h, serveStream fail enc encAll encodeErr "GET".toList "application/json".toList
      (.chan ([] : List V)) {} = some w' ∧ w'.sent = some (204, h)) ∧
    (∃ w' h, serveStream fail enc encAll encodeErr "GET".toList "text/event-stream".toList
      (.chan ([] : List V)) {} = some w' ∧ w'.sent = some (200, h)) := by
  have h1 : streamMode "GET".toList "application/json".toList (Stream.chan ([] : List V)) = .ok .json := by
    unfold streamMode
    dsimp only
    rw [if_neg (by decide +kernel), if_neg (by decide +kernel), if_pos (by decide +kernel)]
  have h2 : streamMode "GET".toList "text/event-stream".toList (Stream.chan ([] : List V)) = .ok .sse := by
    unfold streamMode
    dsimp only
    rw [if_neg (by decide +kernel), if_pos (by decide +kernel), if_neg (by decide +kernel)]
  constructor
  · unfold serveStream
    rw [h1]
    exact ⟨_, _, rfl, rfl⟩
  · unfold serveStream
    rw [h2]
    exact ⟨_, _, rfl, rfl⟩

/-- C126: events that are not values of the iterator are never sent. -/
def CleanEventsClaim : Prop :=
  ∀ (enc : Item Nat → Option Str) (vs : List Nat) (w' : W),
    serveStream (handleW id []) enc (fun _ => none) (argumentErr (S "bad")) (S "GET") (S "text/event-stream")
      (.seq vs) {} = some w' → ∃ vs' : List Nat, w'.body = eventsText (fun i => (enc i).getD []) (vs'.map Item.one)

/-- C126 is false: a value that cannot be encoded puts the text of the error in the stream,
and ends it. -/
theorem events_fails : ¬ CleanEventsClaim := by
  intro h
  have hrun : (serveStream (handleW id []) (fun i => if i = Item.one 2 then none else some (S "1"))
      (fun _ => none) (argumentErr (S "bad")) (S "GET") (S "text/event-stream") (.seq [1, 2, 3]) {}).map W.body =
      some (S "data: 1\n\nbad\n") := by decide +kernel
  rw [Option.map_eq_some_iff] at hrun
  obtain ⟨w', h1, h2⟩ := hrun
  obtain ⟨vs', h3⟩ := h _ _ _ h1
  rw [h2] at h3
  have hl : ∀ vs : List (Item Nat), ∀ f : Item Nat → Str, eventsText f vs = [] ∨
      ∃ x, eventsText f vs = x ++ S "\n\n" := by
    intro vs f
    induction vs with
    | nil => exact Or.inl rfl
    | cons v vs ih =>
      refine Or.inr ?_
      rw [eventsText, List.map_cons, List.flatten_cons]
      rcases ih with e | ⟨x, e⟩
      · unfold eventsText at e
        rw [e]; exact ⟨"data: ".toList ++ f v, by rw [List.append_nil]; rfl⟩
      · unfold eventsText at e
        rw [e]; exact ⟨eventText (f v) ++ x, by rw [List.append_assoc]⟩
  rcases hl (vs'.map Item.one) (fun i => ((fun i => if i = Item.one 2 then none else some (S "1")) i).getD []) with e | ⟨x, e⟩
  · rw [e] at h3; exact absurd h3 (by decide)
  · rw [e] at h3
    have := congrArg (fun l => l.reverse.take 2) h3
    simp only [List.reverse_append] at this
    have h5 : List.take 2 ((S "\n\n").reverse ++ x.reverse) = S "\n\n" := rfl
    rw [h5] at this
    exact absurd this (by decide)

end Verif.Rest.Serve
