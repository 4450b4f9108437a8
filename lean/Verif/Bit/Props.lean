import Verif.Bit.Model
/-!
# C40: bytes written come out unchanged
-/
namespace Verif.Bit

/-- The simplest writer: it keeps the bytes of the arrays it is given. -/
def sink : Writer (List UInt8) where
  writeBits s a := match a.bytes with
    | none => none
    | some b => some (s ++ b, a.length, true)

theorem fill_take (data : List UInt8) (h : data.length ≤ 16) :
    (fill data).toList.take data.length = data := by
  apply List.ext_getElem?
  intro i
  by_cases hi : i < data.length
  · rw [List.getElem?_take_of_lt hi, List.getElem?_eq_getElem hi]
    have : i < 16 := by omega
    simp [fill, List.getD, hi, this]
  · rw [List.getElem?_eq_none (by simp; omega), List.getElem?_eq_none (by omega)]

/-- What an array made of up to sixteen bytes gives back. -/
theorem bytes_fill (data : List UInt8) (h : data.length ≤ 16) :
    Arr.bytes ⟨fill data, data.length * 8⟩ = some data := by
  simp only [Arr.bytes, Nat.mul_div_cancel _ (show 0 < 8 by omega), if_pos h, fill_take data h]

/-- C40, for up to sixteen bytes: any writer is called exactly once, with an array that holds
exactly these bytes. -/
theorem write_short {σ : Type} (w : Writer σ) (s : σ) (data : List UInt8) (h : data.length ≤ 16) :
    ∃ a : Arr, a.bytes = some data ∧ a.length = 8 * data.length ∧
      writeBytes w s data = w.writeBits s a ∧ writeString w s data = w.writeBits s a := by
  refine ⟨⟨fill data, data.length * 8⟩, bytes_fill data h, Nat.mul_comm _ _, ?_, ?_⟩
  · rw [writeBytes, if_neg (by omega)]
  · rw [writeString, if_neg (by omega)]

/-- C40, partial: up to sixteen bytes arrive, by `WriteBytes` and by `WriteString`. -/
theorem write_partial (s data : List UInt8) (h : data.length ≤ 16) :
    writeBytes sink s data = some (s ++ data, 8 * data.length, true) ∧
    writeString sink s data = some (s ++ data, 8 * data.length, true) := by
  obtain ⟨a, ha, hl, e1, e2⟩ := write_short sink s data h
  rw [e1, e2]
  simp [sink, ha, hl]

example : writeString sink [1] [2, 3] = some ([1, 2, 3], 16, true) :=
  (write_partial [1] [2, 3] (by decide)).2

theorem slow_sink (data : List UInt8) (s : List UInt8) (n : Nat) :
    chunks sink (fun d => ⟨fill (d.take 16), 0⟩) data s n = some (s, n, true) := by
  induction hk : data.length using Nat.strongRecOn generalizing data with
  | _ k ih =>
    rw [chunks]
    split
    · rfl
    · have e : sink.writeBits s ⟨fill (data.take 16), 0⟩ = some (s, 0, true) := by
        simp [sink, Arr.bytes]
      simp only [e]
      simp only [Nat.add_zero, if_true]
      exact ih (data.drop 16).length (by rw [List.length_drop]; omega) (data.drop 16) rfl

/-- C40 fails for more than sixteen bytes, whatever they are: `WriteBytes` reports success and
nothing arrives. -/
theorem long_bytes_lost (s data : List UInt8) (h : 16 < data.length) :
    writeBytes sink s data = some (s, 0, true) := by
  rw [writeBytes, if_pos h, writeBytesSlow, slow_sink]

/-- C40 fails for more than sixteen bytes of text, whatever they are: the array claims more bytes
than it has, and a writer that looks at them panics. -/
theorem long_string_panics (s data : List UInt8) (h : 16 < data.length) :
    writeString sink s data = none := by
  rw [writeString, if_pos h, chunks, dif_neg (by omega)]
  have : sink.writeBits s ⟨fill data, data.length * 8⟩ = none := by
    simp only [sink, Arr.bytes]
    rw [if_neg (by omega)]
  simp only [this]

/-- C40 fails: bytes are lost, and a text panics. -/
theorem write_fails : ¬ ∀ s data : List UInt8, ∃ n, writeBytes sink s data = some (s ++ data, n, true) := by
  intro h
  obtain ⟨n, e⟩ := h [] (List.replicate 17 0)
  rw [long_bytes_lost _ _ (by decide)] at e
  revert e
  simp

/-! ## Streams -/

/-- What a program does with a stream. -/
inductive Op
  | write (data : List UInt8)
  | flush

/-- Runs the operations: `WriteBytes` on the stream, or `Flush`. -/
def run : List Op → Stream (List UInt8) → Option (Stream (List UInt8))
  | [], t => some t
  | .write d :: ops, t => match writeBytes (stream sink) t d with
    | some (t, _, true) => run ops t
    | _ => none
  | .flush :: ops, t => match flush sink t with
    | some (t, true) => run ops t
    | _ => none

/-- The specification: all the bytes, in order. -/
def written : List Op → List UInt8
  | [] => []
  | .write d :: ops => d ++ written ops
  | .flush :: ops => written ops

/-- The writes are short, and there is a flush before more than sixteen bytes are waiting. -/
def Flushed : Nat → List Op → Prop
  | _, [] => True
  | k, .write d :: ops => k + d.length ≤ 16 ∧ Flushed (k + d.length) ops
  | _, .flush :: ops => Flushed 0 ops

theorem flush_sink (t : Stream (List UInt8)) :
    flush sink t = some (⟨t.under ++ (if t.buf.length ≤ 16 then t.buf else []), []⟩, true) := by
  rcases t with ⟨u, b⟩
  unfold flush
  by_cases h : b.length > 0
  · rw [if_pos h]
    by_cases h' : b.length ≤ 16
    · simp only [(write_partial u b h').1, if_pos h']
    · simp only [long_bytes_lost u b (by omega), if_neg h', List.append_nil]
  · have : b = [] := List.length_eq_zero_iff.1 (by omega)
    subst this
    simp

theorem stream_write (t : Stream (List UInt8)) (d : List UInt8) (hd : d.length ≤ 16)
    (ht : t.buf.length ≤ 1024) :
    writeBytes (stream sink) t d = some (
      (if t.buf.length + d.length > 1024 then ⟨t.under, d⟩ else ⟨t.under, t.buf ++ d⟩),
      8 * d.length, true) := by
  obtain ⟨a, ha, hl, e1, _⟩ := write_short (stream sink) t d hd
  rw [e1]
  have st : ∀ t : Stream (List UInt8), t.buf.length + d.length ≤ 1024 →
      store sink t a d = some (⟨t.under, t.buf ++ d⟩, 8 * d.length, true) := by
    intro t h
    rw [store, if_neg (by omega), List.take_of_length_le (by omega), hl]
  show streamBits sink t a = _
  rw [streamBits, ha]
  by_cases h : t.buf.length + d.length > 1024
  · simp only [if_pos h, flush_sink, if_neg (show ¬ t.buf.length ≤ 16 by omega), List.append_nil]
    rw [st _ (by simp; omega)]
    rfl
  · simp only [if_neg h]
    exact st t (by omega)

/-- C40: if the writer under a stream fails while the stream makes room, so does the write to the stream: nothing of the
data counts as written, and what was waiting still waits. `Flush` fails alike. -/
theorem stream_error {σ : Type} (w : Writer σ) (t : Stream σ) (s : σ) (k : Nat) (d : List UInt8) (hd : d.length ≤ 16)
    (hb : t.buf.length ≤ 1024) (hfull : 1024 < t.buf.length + d.length)
    (hw : writeBytes w t.under t.buf = some (s, k, false)) :
    writeBytes (stream w) t d = some (⟨s, t.buf⟩, 0, false) ∧ flush w t = some (⟨s, t.buf⟩, false) := by
  have hf : flush w t = some (⟨s, t.buf⟩, false) := by
    unfold flush
    rw [if_pos (by omega), hw]
  obtain ⟨a, ha, hl, e1, _⟩ := write_short (stream w) t d hd
  refine ⟨?_, hf⟩
  rw [e1]
  show streamBits w t a = _
  rw [streamBits, ha]
  simp only [if_pos (show t.buf.length + d.length > 1024 by omega), hf]

/-- A writer that always fails. -/
def broken : Writer Nat := ⟨fun n _ => some (n + 1, 0, false)⟩

example (b : List UInt8) (hb : b.length = 1020) : writeBytes (stream broken) ⟨0, b⟩ [1, 2, 3, 4, 5] =
    some (⟨1, b⟩, 0, false) := by
  refine (stream_error broken ⟨0, b⟩ 1 0 [1, 2, 3, 4, 5] (by decide) (by rw [hb]; decide) (by rw [hb]; decide) ?_).1
  show writeBytes broken 0 b = _
  rw [writeBytes, if_pos (by omega), writeBytesSlow, chunks, dif_neg (by omega)]
  simp [broken]

example : ∃ b : List UInt8, b.length = 1020 := ⟨List.replicate 1020 7, List.length_replicate⟩

/-- C40, partial: whatever is written in pieces of up to sixteen bytes, with a flush before more
than sixteen are waiting, arrives completely and in order, or waits. -/
theorem stream_partial (ops : List Op) (h : Flushed 0 ops) :
    ∃ t, run ops ⟨[], []⟩ = some t ∧ t.under ++ t.buf = written ops := by
  suffices gen : ∀ (ops : List Op) (t : Stream (List UInt8)), Flushed t.buf.length ops →
      t.buf.length ≤ 16 → ∃ t', run ops t = some t' ∧ t'.under ++ t'.buf = t.under ++ t.buf ++ written ops by
    simpa using gen ops ⟨[], []⟩ h (by simp)
  intro ops
  induction ops with
  | nil => intro t _ _; exact ⟨t, rfl, by simp [written]⟩
  | cons op ops ih =>
    intro t hf hb
    cases op with
    | write d =>
      obtain ⟨h1, h2⟩ := hf
      simp only [run, stream_write t d (by omega) (by omega),
        if_neg (show ¬ t.buf.length + d.length > 1024 by omega)]
      obtain ⟨t', e, r⟩ := ih ⟨t.under, t.buf ++ d⟩ (by simpa using h2) (by simpa using h1)
      exact ⟨t', e, by rw [r]; simp [written]⟩
    | flush =>
      simp only [run, flush_sink, if_pos hb]
      obtain ⟨t', e, r⟩ := ih ⟨t.under ++ t.buf, []⟩ hf (by simp)
      exact ⟨t', e, by rw [r]; simp [written]⟩

example : Flushed 0 [.write [1, 2], .write [3], .flush, .write (List.replicate 16 0), .flush] := by
  simp [Flushed]

/-- C40 fails: a flush of more than sixteen waiting bytes forgets all of them, whatever they are. -/
theorem flush_forgets (u b : List UInt8) (h : 16 < b.length) :
    flush sink ⟨u, b⟩ = some (⟨u, []⟩, true) := by
  rw [flush_sink, if_neg (by simp; omega), List.append_nil]

/-- C40 fails: two writes of ten bytes and a flush, and nothing is left. -/
theorem stream_fails : ∃ ops t, run ops ⟨[], []⟩ = some t ∧ (written ops).length = 20 ∧
    t.under ++ t.buf = [] := by
  refine ⟨[.write (List.replicate 10 1), .write (List.replicate 10 2), .flush], ⟨[], []⟩, ?_, rfl, rfl⟩
  simp only [run]
  rw [stream_write _ _ (by simp) (by simp)]
  simp only [List.length_nil, List.length_replicate]
  rw [if_neg (by omega)]
  simp only [List.nil_append]
  rw [stream_write _ _ (by simp) (by simp)]
  simp only [List.length_replicate]
  rw [if_neg (by omega)]
  rw [flush_forgets _ _ (by simp)]

end Verif.Bit
