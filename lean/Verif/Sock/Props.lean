import Verif.Sock.Lemmas

/-! Properties of websocket framing and server-sent events: C30, C31, C60, C61, C62. -/
namespace Verif.Sock

/-! ### C30: frames written by the library -/

/-- **C30.** A conforming stream can be understood in one way only, so that what `Understands` says is what a receiver gets. -/
theorem understood_once (bytes : Bytes) (f g : Frame) (r r' : Bytes) (h : Understands bytes f r) (h' : Understands bytes g r') : f = g ∧ r = r' :=
  wire_inj f g r r' h.2 h'.2 (h.1.symm.trans h'.1)

/-- **C30 (partial: payloads of less than 126 bytes).** Every message the server sends is understood as one unmasked final frame
with that payload, and what follows it is read as what follows it. -/
theorem server_frames_partial (op : Opcode) (b rest : Bytes) (h : b.length < 126) :
    Understands (serverFrame op b ++ rest) ⟨true, opNumber op, none, b⟩ rest :=
  ⟨by rw [serverFrame_wire op b h], by show b.length < 2 ^ 63; omega⟩

/-- **C30 (partial)**, clients: with whatever key is drawn, masked as a client must. -/
theorem client_frames_partial (op : Opcode) (k : UInt8 × UInt8 × UInt8 × UInt8) (b rest : Bytes) (h : b.length < 126) :
    Understands (clientFrame op (keyBytes k) b ++ rest) ⟨true, opNumber op, some k, b⟩ rest :=
  ⟨by rw [clientFrame_wire op k b h], by show b.length < 2 ^ 63; omega⟩

example : serverFrame .text [123, 125] = [0x81, 2, 123, 125] ∧ ([123, 125] : Bytes).length < 126 ∧
    clientFrame .text [1, 2, 3, 4] [123, 125] = [0x81, 0x82, 1, 2, 3, 4, 122, 127] := by decide

/-- **C30**, the full claim for the server. -/
def ServerFrames : Prop := ∀ (op : Opcode) (b : Bytes), b.length < 2 ^ 63 → Understands (serverFrame op b) ⟨true, opNumber op, none, b⟩ []

/-- **C30 fails** for every longer payload: no receiver, whatever else it makes of the frame, gets the payload. -/
theorem long_server_frames_lost (op : Opcode) (b : Bytes) (h : 126 ≤ b.length) (f : Frame) (rest : Bytes)
    (hu : Understands (serverFrame op b) f rest) : f.payload ≠ b := by
  rintro hp
  have hl := congrArg List.length hu.1
  have : (serverFrame op b).length = 2 + b.length := by
    unfold serverFrame lengthPart
    rw [if_neg (by omega)]
    split <;> simp <;> omega
  rw [this, List.length_append] at hl
  have hw : f.wire.length = 1 + (rfcLength f.key.isSome b.length).length + ((match f.key with | none => 0 | some _ => 4) + b.length) := by
    unfold Frame.wire
    rw [hp]
    cases hk : f.key with
    | none => simp; omega
    | some k => simp [keyBytes, applyMask]; omega
  have h3 : 3 ≤ (rfcLength f.key.isSome b.length).length := by
    obtain ⟨l, more, e, h'⟩ := rfcLength_cons f.key.isSome b.length
    rw [e, List.length_cons]
    rcases h' with ⟨a, _⟩ | ⟨_, _, _, rfl⟩ | ⟨_, _, rfl⟩
    · omega
    · rw [bytesBE_length]; omega
    · rw [bytesBE_length]; omega
  omega

theorem server_frames_fails : ¬ ServerFrames := by
  intro h
  exact long_server_frames_lost .text (List.replicate 126 0) (by simp) _ _ (h .text (List.replicate 126 0) (by simp)) rfl

/-- The hypothesis of `long_server_frames_lost` can be met: a receiver understands something else. -/
example : Understands (serverFrame .text (0 :: 126 :: List.replicate 126 7)) ⟨true, 1, none, List.replicate 126 7⟩ [] :=
  ⟨by decide +kernel, by simp⟩

/-! ### C31: frames read by the library -/

/-- **C31 (partial: keys that read the same in both directions, and no key).** From a conforming stream of any number of frames of any
size up to 2^48 bytes, a reader with a receive channel delivers exactly the texts, in order, and answers the pings. -/
theorem frames_read_partial (side : Side) (fs : List Frame) (hl : ∀ f ∈ fs, f.payload.length ≤ 2 ^ 48) (hk : ∀ f ∈ fs, f.KeyPalindrome) :
    readAll side true (wires fs) = (fs.flatMap meaning, false) :=
  readLoop_wires side fs _ hl (wires_length fs) hk

/-- **C31 (partial)**: frames without a key, as a client gets them from a conforming server. -/
theorem unmasked_frames_read_partial (side : Side) (fs : List Frame) (hl : ∀ f ∈ fs, f.payload.length ≤ 2 ^ 48) (hk : ∀ f ∈ fs, f.key = none) :
    readAll side true (wires fs) = (fs.flatMap meaning, false) :=
  frames_read_partial side fs hl (fun f hf a b c d h => by rw [hk f hf] at h; cases h)

/-- **C31**, precisely: a text frame is always taken off the stream as a whole, and its payload is recovered exactly when the key's
octets that the payload uses are the same read backwards. -/
theorem masked_recovered_iff (side : Side) (fin : Bool) (k : UInt8 × UInt8 × UInt8 × UInt8) (b rest : Bytes) (hl : b.length ≤ 2 ^ 48) :
    ∃ text, readFrame side true ((⟨fin, 1, some k, b⟩ : Frame).wire ++ rest) = .next [.deliver text] rest ∧
      (text = b ↔ ∀ i < b.length, keyByte k i = keyByte k (3 - i % 4)) := by
  have h1 := readFrame_wire side true ⟨fin, 1, some k, b⟩ (by show b.length < 2 ^ 63; omega) rest
  have h2 := handle_wire side ⟨fin, 1, some k, b⟩ hl rest
  refine ⟨_, h1.trans h2, ?_⟩
  exact unmasked_iff k b

/-- **C31**, the full claim for what a conforming client sends to the server. -/
def FramesRead : Prop :=
  ∀ (fs : List Frame), (∀ f ∈ fs, f.payload.length ≤ 2 ^ 48) → readAll .server true (wires fs) = (fs.flatMap meaning, false)

/-- **C31 fails**: the text `1` masked with the key 1, 2, 3, 4 arrives as `4`. -/
theorem frames_read_fails : ¬ FramesRead := by
  intro h
  have := h [⟨true, 1, some (1, 2, 3, 4), [0x31]⟩] (by simp)
  revert this
  decide +kernel

/-- **C31 fails** between the library's own client and server too. -/
theorem client_to_server_fails : readAll .server true (clientFrame .text [1, 2, 3, 4] [0x31]) = ([.deliver [0x34]], false) := by decide +kernel

example : (∀ f ∈ ([⟨true, 1, some (1, 2, 2, 1), [0x31, 0x32]⟩, ⟨true, 9, none, []⟩, ⟨true, 1, none, [0x33]⟩] : List Frame), f.KeyPalindrome) ∧
    readAll .server true (wires [⟨true, 1, some (1, 2, 2, 1), [0x31, 0x32]⟩, ⟨true, 9, none, []⟩, ⟨true, 1, none, [0x33]⟩]) =
      ([.deliver [0x31, 0x32], .pong, .deliver [0x33]], false) := by
  refine ⟨?_, by decide +kernel⟩
  intro f hf a b c d h
  simp only [List.mem_cons, List.not_mem_nil, or_false] at hf
  rcases hf with rfl | rfl | rfl
  · simp only [Option.some.injEq, Prod.mk.injEq] at h
    obtain ⟨rfl, rfl, rfl, rfl⟩ := h
    exact ⟨rfl, rfl⟩
  · cases h
  · cases h

/-! ### C60: peers cannot crash the process -/

/-- **C60**, the full claim. -/
def NeverPanics (side : Side) (recv : Bool) : Prop := ∀ s, (readAll side recv s).2 = false

theorem client_loop_safe : ∀ n s, (readLoop .client false n s).2 = false := by
  intro n
  induction n with
  | zero => intro s; rfl
  | succ n ih =>
    intro s
    rw [readLoop]
    have : readFrame .client false s ≠ .panic := by
      unfold readFrame
      split
      · split
        · simp
        · split
          · simp
          · unfold handle handleText
            split
            · simp
            · split <;> simp
      · simp
    cases hr : readFrame .client false s with
    | stop => rfl
    | panic => exact absurd hr this
    | next es s' => exact ih s'

/-- **C60 (partial)**: a client without a receive channel survives every stream. -/
theorem client_never_panics_partial : NeverPanics .client false := fun s => client_loop_safe _ s

/-- **C60 (partial)**: nor does a conforming stream of frames up to 2^48 bytes with such keys crash a reader with a channel. -/
theorem conforming_never_panics_partial (side : Side) (fs : List Frame) (hl : ∀ f ∈ fs, f.payload.length ≤ 2 ^ 48) (hk : ∀ f ∈ fs, f.KeyPalindrome) :
    (readAll side true (wires fs)).2 = false := by rw [frames_read_partial side fs hl hk]

/-- **C60 fails** for the server: every text frame of a conforming client, whatever its contents and whatever follows, crashes it. -/
theorem text_crashes_server (f : Frame) (h1 : f.opcode = 1) (hl : f.payload.length < 2 ^ 63) (rest : Bytes) :
    readFrame .server false (f.wire ++ rest) = .panic := by
  rw [readFrame_wire _ _ f hl]
  have e9 : (UInt8.ofNat ((if f.fin then 128 else 0) + f.opcode.val) &&& 0x0F = 0x9) ↔ f.opcode = 9 := opcode_cases f 9
  have e1 : (UInt8.ofNat ((if f.fin then 128 else 0) + f.opcode.val) &&& 0x0F = 0x1) ↔ f.opcode = 1 := opcode_cases f 1
  unfold handle handleText
  rw [if_neg (by rw [e9, h1]; decide), if_pos (e1.mpr h1), if_neg (by simp)]
  split
  · rfl
  · have := readN_append f.masked rest
    rw [masked_length] at this
    rw [this]; simp

theorem server_never_panics_fails : ¬ NeverPanics .server false := by
  intro h
  exact absurd (h [0x81, 0]) (by decide)

/-- **C60 fails** for a client with a receive channel: ten bytes that announce 2^56 bytes. -/
theorem client_never_panics_fails : ¬ NeverPanics .client true := by
  intro h
  exact absurd (h [0x81, 127, 1, 0, 0, 0, 0, 0, 0, 0]) (by decide +kernel)

/-! ### C61: server-sent events -/

/-- **C61 (partial: the text level).** The texts of any sequence of events written by the server, each a line of JSON, are what the
client's loop sees, in order. -/
theorem sse_texts_partial (ds : List Bytes) (h : ∀ d ∈ ds, OneLine d) : sseTexts (ds.flatMap sseWrite) = ds := texts_sse ds h

example : (∀ d ∈ ([[0x31], [0x7b, 0x7d]] : List Bytes), OneLine d) ∧ sseTexts (([[0x31], [0x7b, 0x7d]] : List Bytes).flatMap sseWrite) = [[0x31], [0x7b, 0x7d]] := by
  refine ⟨?_, by decide +kernel⟩
  intro d hd
  simp only [List.mem_cons, List.not_mem_nil, or_false] at hd
  rcases hd with rfl | rfl <;> exact ⟨by decide, by decide, by decide, by decide⟩

/-- **C61**, the full claim: they arrive in the receive channel. -/
def SseDelivers : Prop := ∀ (ds : List Bytes), (∀ d ∈ ds, OneLine d) → (sseClient .recv (ds.flatMap sseWrite)).1 = ds

/-- **C61 fails** always: nothing ever arrives, whatever is sent and whatever the channel. -/
theorem sse_never_delivers (dir : ChanDir) (s : Bytes) : (sseClient dir s).1 = [] := by cases dir <;> rfl

theorem sse_delivers_fails : ¬ SseDelivers := by
  intro h
  have := h [[0x31]] (by intro d hd; simp at hd; subst hd; exact ⟨by decide, by decide, by decide, by decide⟩)
  rw [sse_never_delivers] at this
  cases this

/-- **C61 fails** worse: the first event crashes the client that asked for it. -/
theorem sse_crashes_client (d : Bytes) (h : OneLine d) : (sseClient .recv (sseWrite d)).2 = true := by
  have := sse_texts_partial [d] (by simpa using h)
  simp only [List.flatMap_cons, List.flatMap_nil, List.append_nil] at this
  simp [sseClient, this]

/-! ### C62: control frames and fragments -/

/-- What the server sends for an event. -/
def reply : Event → Bytes
  | .pong => serverFrame .pong []
  | .deliver _ => []

/-- **C62 (partial).** Every conforming ping is answered by exactly one pong, which a client understands. -/
theorem ping_answered_partial (f : Frame) (h9 : f.opcode = 9) (hl : f.payload.length ≤ 2 ^ 48) (rest : Bytes) :
    readFrame .server true (f.wire ++ rest) = .next [.pong] rest ∧ Understands (reply .pong ++ rest) ⟨true, 10, none, []⟩ rest := by
  refine ⟨?_, server_frames_partial .pong [] rest (by simp)⟩
  rw [readFrame_wire _ _ f (by omega), handle_wire _ f hl, h9]; rfl

example : readFrame .server true ((⟨true, 9, some (1, 2, 3, 4), [5]⟩ : Frame).wire ++ [7]) = .next [.pong] [7] := by decide +kernel

/-- **C62**, as RFC 6455 (5.5.3) has it: the pong carries the ping's payload. -/
def PongEchoes : Prop := ∀ (f : Frame) (rest : Bytes), f.opcode = 9 → f.payload.length < 126 →
    ∃ es, readFrame .server true (f.wire ++ rest) = .next es rest ∧ ∃ p r, Understands (es.flatMap reply) p r ∧ p.payload = f.payload

/-- **C62 fails**: the pong is empty. -/
theorem pong_echoes_fails : ¬ PongEchoes := by
  intro h
  obtain ⟨es, h1, p, r, h2, h3⟩ := h ⟨true, 9, none, [5]⟩ [] rfl (by simp)
  have e : readFrame .server true ((⟨true, 9, none, [5]⟩ : Frame).wire ++ []) = .next [.pong] [] := by decide +kernel
  rw [e] at h1
  injection h1 with h1
  subst h1
  have h4 : Understands ([Event.pong].flatMap reply) ⟨true, 10, none, []⟩ [] :=
    server_frames_partial .pong [] [] (by simp)
  obtain ⟨rfl, _⟩ := understood_once _ _ _ _ _ h2 h4
  cases h3

/-- **C62 fails** for messages in fragments (RFC 6455, 5.4): `12` sent as `1` and `2` is delivered as `1`. -/
theorem fragments_fail : readAll .server true (wires [⟨false, 1, none, [0x31]⟩, ⟨true, 0, none, [0x32]⟩]) = ([.deliver [0x31]], false) := by decide +kernel

end Verif.Sock
