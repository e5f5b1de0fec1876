import Verif.Lemmas.Outgoing
import Verif.Lemmas.ZeroRead

/-! C22-C31: bodies. -/

namespace HttpIo
open Spec

section
variable {ρ : Type} [LawfulReader ρ] [ZeroReader ρ]

/-- The receiving side of a chunked message (`HttpBody::new` with encoding `chunked`). -/
theorem chunked_new (c : Cfg) (n : Option Nat) (u : ρ) :
    HttpBody.new c (some b!"chunked") n u = .Chunked (HttpChunkedBody.new c n u) := by
  unfold HttpBody.new; rw [if_pos rfl]

/-- Chunks of the right size with any two bytes after their data are decoded. -/
theorem decode_sized (c : Cfg) (n : Option Nat) (u : ρ) (chs : List Chunk) (last : Bytes) (rest : List Ev)
    (hs : ∀ ch ∈ chs, ch.Sized) (hl : UnsignedText 16 last 0) (hd : DeliversChunked c (trace u) chs last rest) :
    Yields (HttpBody.new c (some b!"chunked") n u) (chunkedData chs) ∧
    ∀ sizes, Positive sizes → .ok [] ∈ (calls (HttpBody.new c (some b!"chunked") n u) sizes).1 →
      ∃ s, (calls (HttpBody.new c (some b!"chunked") n u) sizes).2.under = some s ∧ trace s = rest := by
  have henc := enc_of_delivers hd hl hs
  rw [chunked_new]
  refine ⟨yields_of_trace ?_, fun sizes hp he => ?_⟩
  · rw [HttpBody.trace_chunked, HttpChunkedBody.trace_new]
    exact henc.trace []
  · rw [HttpBody.calls_chunked] at he ⊢
    exact (HttpChunkedBody.calls_end hp (.inr (.inl ⟨rfl, u, rfl, henc⟩)) he).under

/-! ### C24 -/

/-- Every well-formed chunk sequence, with sizes spelled in any accepted way, is decoded to its data, for every
fragmentation and every schedule of positive buffer sizes; when the end of the body has been reported, the stream
stands right after the last size line. -/
theorem C24_decode (c : Cfg) (n : Option Nat) (u : ρ) (chs : List Chunk) (last : Bytes) (rest : List Ev)
    (hw : ∀ ch ∈ chs, ch.WellFormed) (hl : UnsignedText 16 last 0) (hd : DeliversChunked c (trace u) chs last rest) :
    Yields (HttpBody.new c (some b!"chunked") n u) (chunkedData chs) ∧
    ∀ sizes, Positive sizes → .ok [] ∈ (calls (HttpBody.new c (some b!"chunked") n u) sizes).1 →
      ∃ s, (calls (HttpBody.new c (some b!"chunked") n u) sizes).2.under = some s ∧ trace s = rest :=
  decode_sized c n u chs last rest (fun ch h => (hw ch h).1) hl hd

end

/-- Witness: `+03 CRLF abc CRLF`, `A CRLF 0123456789 CRLF`, `00 CRLF`, fragmented. -/
example :
    let chs : List Chunk := [⟨b!"+03", b!"abc", [13, 10]⟩, ⟨b!"A", b!"0123456789", [13, 10]⟩]
    (∀ ch ∈ chs, ch.WellFormed) ∧ UnsignedText 16 b!"00" 0 ∧
    DeliversChunked ⟨false⟩ (trace (Wire.mk [.data b!"+0", .data b!"3\r", .data b!"\nabc\r\nA\r\n01234", .data
      b!"56789\r\n00\r\nrest"])) chs b!"00" (b!"rest".map .byte) := by
  refine ⟨?_, ?_, ?_⟩
  · intro ch hch
    simp only [List.mem_cons, List.not_mem_nil, or_false] at hch
    rcases hch with rfl | rfl
    · refine ⟨⟨.inr ⟨b!"03", rfl, ?_⟩, by decide, by decide, rfl⟩, rfl⟩
      exact (Numeral.one (.dec 0 (by omega) (by omega))).snoc (.dec 3 (by omega) (by omega))
    · exact ⟨⟨.inl (.one (.upper 10 (by omega) (by omega) (by omega))), by decide, by decide, rfl⟩, rfl⟩
  · exact .inl ((Numeral.one (.dec 0 (by omega) (by omega))).snoc (.dec 0 (by omega) (by omega)))
  · exact deliversChunked_map ⟨false⟩ [⟨b!"+03", b!"abc", [13, 10]⟩, ⟨b!"A", b!"0123456789", [13, 10]⟩] b!"00"
      (b!"rest".map .byte)

/-! ### C22, C23 -/

section
variable {c : Cfg} {σ : Type} [LawfulWriter σ]

/-- Sending: after any sequence of writes and flushes and a successful `complete`, the transport has received what was
sent before, one well-formed chunk per non-empty write, a zero-size line and an empty line; and the receiver decodes
exactly the concatenation of what was written. -/
theorem C22_upload (b b' : OutgoingBody c σ) (s' : σ) (cs : List WCall) (hlen : ∀ buf ∈ written cs, buf.length < 2 ^ 64)
    (hw : perform b cs = (true, b')) (hc : (OutgoingRequest.WithBody b').complete = .ok s') :
    ∃ chs, ChunksFor chs (written cs) ∧
      wire s' = sent b.socket ++ chunkedBytes chs b!"0" ++ b!"\r\n" ∧
      ∀ (ρ : Type) [LawfulReader ρ] [ZeroReader ρ] (c' : Cfg) (n : Option Nat) (u : ρ) (rest : List Ev),
        trace u = (chunkedBytes chs b!"0" ++ b!"\r\n").map .byte ++ rest →
        Yields (HttpBody.new c' (some b!"chunked") n u) (written cs).flatten ∧
        ∀ sizes, Positive sizes → .ok [] ∈ (calls (HttpBody.new c' (some b!"chunked") n u) sizes).1 →
          ∃ s, (calls (HttpBody.new c' (some b!"chunked") n u) sizes).2.under = some s ∧
            trace s = b!"\r\n".map .byte ++ rest := by
  obtain ⟨chs, h1, h2⟩ := chunksFor (written cs) hlen
  obtain ⟨_, p, _, h3, h4⟩ := OutgoingBody.perform_sent hw
  obtain ⟨h5, h6⟩ := OutgoingBody.complete_ok hc
  refine ⟨chs, h1, ?_, ?_⟩
  · rw [h6, h5, h3, h4 rfl, h2]; simp [chunkedBytes]
  · intro ρ _ _ c' n u rest ht
    rw [← chunkedData_for h1]
    apply decode_sized c' n u chs b!"0" (b!"\r\n".map Ev.byte ++ rest) (fun ch h => (h1.1 ch h).1)
    · exact .inl (.one (.dec 0 (by omega) (by omega)))
    · rw [ht, List.map_append, List.append_assoc]
      exact deliversChunked_map c' chs b!"0" _

/-- After a successful flush everything written so far is on the transport, a chunk for each non-empty write. -/
theorem C22_flush (b b1 b2 : OutgoingBody c σ) (cs : List WCall) (hlen : ∀ buf ∈ written cs, buf.length < 2 ^ 64)
    (hw : perform b cs = (true, b1)) (hf : flush b1 = (.ok (), b2)) :
    ∃ chs, ChunksFor chs (written cs) ∧ wire b2.socket = sent b.socket ++ (chs.map Chunk.bytes).flatten := by
  obtain ⟨chs, h1, h2⟩ := chunksFor (written cs) hlen
  obtain ⟨_, p, _, h3, h4⟩ := OutgoingBody.perform_sent hw
  refine ⟨chs, h1, ?_⟩
  rw [← h2, ← h4 rfl, ← h3]
  rw [OutgoingBody.flush_def] at hf
  unfold OutgoingBody.flushImpl at hf
  rcases hs : flush b1.socket with ⟨r, w⟩
  rw [hs] at hf
  simp only [Prod.mk.injEq] at hf
  obtain ⟨rfl, rfl⟩ := hf
  have h6 := LawfulWriter.flush_sent b1.socket
  rw [hs] at h6
  rw [← h6]
  exact LawfulWriter.flush_ok_wire hs

/-- An empty write returns `Ok(0)` and changes nothing at all. -/
theorem C23_empty_write (b : OutgoingBody c σ) : write b [] = (.ok 0, b) := by
  rw [OutgoingBody.write_def]; rfl

/-- So empty writes can be put in (or left out) anywhere in a sequence of calls. -/
theorem C23_empty_anywhere (b : OutgoingBody c σ) (cs1 cs2 : List WCall) :
    perform b (cs1 ++ .write [] :: cs2) = perform b (cs1 ++ cs2) ∧
    (written (cs1 ++ .write [] :: cs2)).flatten = (written (cs1 ++ cs2)).flatten := by
  constructor
  · induction cs1 generalizing b with
    | nil => simp only [List.nil_append]; rw [perform, C23_empty_write]; rfl
    | cons cl cs ih =>
      cases cl with
      | flush =>
        simp only [List.cons_append, perform]
        rcases flush b with ⟨_ | _, b1⟩
        · rfl
        · exact ih b1
      | write buf =>
        simp only [List.cons_append, perform]
        rcases write b buf with ⟨e | k, b1⟩
        · rfl
        · dsimp only
          by_cases hk : k = buf.length
          · rw [if_pos hk, if_pos hk]; exact ih b1
          · rw [if_neg hk, if_neg hk]
  · induction cs1 with
    | nil => rfl
    | cons cl cs ih => cases cl <;> simpa [written] using ih

end

/-- Witness for `C22_flush`. -/
example : let b := OutgoingBody.mk (BufWriter.new ⟨true⟩ (Sink.mk [] 0 [.accept 2, .fault (.io .interrupted), .accept 1]))
    (perform b [.write b!"ab", .write b!"c"]).1 = true ∧
    (flush (perform b [.write b!"ab", .write b!"c"]).2).1 = .ok () ∧
    wire (flush (perform b [.write b!"ab", .write b!"c"]).2).2.socket = b!"2\r\nab\r\n1\r\nc\r\n" := by decide +kernel

/-- Witness for `C22_upload`: three writes (one empty) and a flush, over a sink that accepts little at a time. -/
example : ∃ b' s', perform (OutgoingBody.mk (BufWriter.new ⟨true⟩ (Sink.mk [] 0 [.accept 2, .fault (.io .interrupted), .accept 1])))
      [.write b!"ab", .write [], .flush, .write b!"0123456789"] = (true, b') ∧
    (OutgoingRequest.WithBody b').complete = .ok s' ∧ wire s' = b!"2\r\nab\r\na\r\n0123456789\r\n0\r\n\r\n" := by
  refine ⟨⟨⟨Sink.mk b!"2\r\nab\r\n" 7 [], b!"a\r\n0123456789\r\n"⟩⟩,
    Sink.mk b!"2\r\nab\r\na\r\n0123456789\r\n0\r\n\r\n" 27 [], ?_, ?_, ?_⟩
  · have : (perform (OutgoingBody.mk (BufWriter.new ⟨true⟩ (Sink.mk [] 0 [.accept 2, .fault (.io .interrupted), .accept 1])))
      [.write b!"ab", .write [], .flush, .write b!"0123456789"]) =
      (true, ⟨⟨Sink.mk b!"2\r\nab\r\n" 7 [], b!"a\r\n0123456789\r\n"⟩⟩) := by
      apply Prod.ext
      · decide +kernel
      · have h : ∀ x y : OutgoingBody ⟨true⟩ Sink, x.socket = y.socket → x = y := by
          rintro ⟨_⟩ ⟨_⟩ rfl; rfl
        apply h
        decide +kernel
    exact this
  · decide +kernel
  · decide +kernel

/-! ### C25 -/

section
variable {ρ : Type} [LawfulReader ρ] [ZeroReader ρ]

/-- If the stream ends anywhere before the terminating zero-size line is complete, the caller gets a prefix of the data
and then an error: never end of body. If the transport itself reported no error, this error is not one that callers
retry. -/
theorem C25_truncated (c : Cfg) (n : Option Nat) (u : ρ) (chs : List Chunk) (last p : Bytes) (t' : List Ev)
    (hw : ∀ ch ∈ chs, ch.WellFormed) (hl : UnsignedText 16 last 0)
    (hp : p <+: chunkedBytes chs last) (hne : p ≠ chunkedBytes chs last)
    (hd : Delivers c (trace u) p t') (he : Ended c t') :
    ∃ d e, FailsAfter (HttpBody.new c (some b!"chunked") n u) d e ∧ d <+: chunkedData chs ∧
      ((∀ e, Ev.fault e ∉ trace u) → e.isInterrupted = false) := by
  obtain ⟨d, e, h1, h2, h3⟩ := chunkT_truncated hd he hp hne (fun ch h => (hw ch h).1) hl
  refine ⟨d, e, ?_, h2, h3⟩
  rw [chunked_new]
  apply failsAfter_of_trace (t := [])
  rw [HttpBody.trace_chunked, HttpChunkedBody.trace_new]
  exact h1

/-- And exactly what: if the stream does not fail but ends before the end of the last size line, every byte of data that
arrived is delivered; then comes an error, of kind UnexpectedEof if the cut is in a chunk's data or in the two bytes after
it, and, with std, of kind Other if it is in a size line. -/
theorem C25_exact (c : Cfg) (n : Option Nat) (u : ρ) (chs : List Chunk) (last p : Bytes)
    (hw : ∀ ch ∈ chs, ch.WellFormed) (hl : UnsignedText 16 last 0)
    (hp : p <+: chunkedBytes chs last) (hne : p ≠ chunkedBytes chs last) (ht : trace u = p.map .byte) :
    (∃ pre q, pre <+: chs ∧ p = (pre.map Chunk.bytes).flatten ++ q ∧ ¬ HasCrLf q ∧
      FailsAfter (HttpBody.new c (some b!"chunked") n u) (chunkedData pre)
        (if c.std then .io (.other 0) else .unexpectedEof)) ∨
    ∃ pre ch q, pre ++ [ch] <+: chs ∧ p = (pre.map Chunk.bytes).flatten ++ ch.size ++ [13, 10] ++ q ∧
      q <+: ch.data ++ [13, 10] ∧ q ≠ ch.data ++ [13, 10] ∧
      FailsAfter (HttpBody.new c (some b!"chunked") n u) (chunkedData pre ++ q.take ch.data.length)
        (if c.std then .io .unexpectedEof else .unexpectedEof) := by
  rw [chunked_new]
  rcases chunkT_cut (c := c) hp hne (fun ch h => (hw ch h).1) hl with ⟨pre, q, h1, h2, h3, h4⟩ | ⟨pre, ch, q, h1, h2, h3, h4, h5⟩
  · refine .inl ⟨pre, q, h1, h2, h3, ?_⟩
    apply failsAfter_of_trace (t := [])
    rw [HttpBody.trace_chunked, HttpChunkedBody.trace_new, ht, h4]
    rfl
  · have ht' : ch.tail = [13, 10] := (hw ch (h1.subset (by simp))).2
    rw [ht'] at h3 h4
    refine .inr ⟨pre, ch, q, h1, h2, h3, h4, ?_⟩
    apply failsAfter_of_trace (t := [])
    rw [HttpBody.trace_chunked, HttpChunkedBody.trace_new, ht, h5]
    rfl

/-! ### C26 -/

/-- The property is false: when the transport fails inside a chunk — with any error, also one that callers retry — the
caller gets the data before the failure, the failure, and then end of body for ever, although the rest of the chunk
(`d2`) and the terminating chunk were never seen. -/
theorem C26_retry_false (c : Cfg) (n : Option Nat) (u : ρ) (ch : Chunk) (hs : ch.Sized) (d1 d2 : Bytes)
    (hdata : ch.data = d1 ++ d2) (hne : d2 ≠ []) (e : Err) (t : List Ev)
    (hd : Delivers c (trace u) (ch.size ++ [13, 10]) (d1.map .byte ++ .fault e :: t)) (sizes : List Nat)
    (hp : Positive sizes) (hmany : d1.length < sizes.length) :
    ∃ rs k, (calls (HttpBody.new c (some b!"chunked") n u) sizes).1 = rs ++ .error e :: List.replicate k (.ok []) ∧
      Pieces rs d1 := by
  have htr : trace (HttpBody.new c (some b!"chunked") n u) = d1.map .byte ++ [.fault e] := by
    rw [chunked_new, HttpBody.trace_chunked, HttpChunkedBody.trace_new]
    obtain ⟨g1, g2, g3, g4⟩ := hs
    have hr := unsignedText_rawLine g1
    rw [chunkT_size]
    unfold expectNextT
    rw [innerNextT_line hr.2.1 hd, lineOutcome, if_neg (by simp [hr.1]), if_pos ((validUtf8_iff _).2 hr.2.2)]
    dsimp only
    rw [parseSize g1 g3]
    dsimp only
    rw [if_neg (by have := List.length_pos_iff.2 g2; omega), chunkT_bytes (by rw [hdata]; simp)]
    obtain ⟨k, hk⟩ : ∃ k, ch.data.length - d1.length = k + 1 := by
      refine ⟨d2.length - 1, ?_⟩
      have := List.length_pos_iff.2 hne
      rw [hdata, List.length_append]; omega
    rw [hk, chunkT]
  rcases failsAfter_then_ends htr hp with ⟨p, _, _, h⟩ | h
  · omega
  · exact h

/-- What does hold: interruptions that the I/O layer itself repeats, in size lines and after chunk data, lose nothing.
(Same hypotheses as `C24_decode`: `DeliversChunked` allows exactly these interruptions.) Missing for the full
property: failures inside the data of a chunk, and failures that are not repeated. -/
theorem C26_interrupted_partial (n : Option Nat) (u : ρ) (chs : List Chunk) (last : Bytes) (rest : List Ev)
    (hw : ∀ ch ∈ chs, ch.WellFormed) (hl : UnsignedText 16 last 0)
    (hd : DeliversChunked ⟨true⟩ (trace u) chs last rest) :
    Yields (HttpBody.new ⟨true⟩ (some b!"chunked") n u) (chunkedData chs) :=
  (C24_decode _ n u chs last rest hw hl hd).1

/-- What a caller sees on every stream whatsoever: some data, at most one error, then end of body for ever. -/
theorem C26_one_error (c : Cfg) (n : Option Nat) (u : ρ) :
    (∃ d, Yields (HttpBody.new c (some b!"chunked") n u) d) ∨
    ∃ d e, FailsAfter (HttpBody.new c (some b!"chunked") n u) d e ∧ ∀ sizes, Positive sizes → d.length < sizes.length →
      ∃ rs k, (calls (HttpBody.new c (some b!"chunked") n u) sizes).1 = rs ++ .error e :: List.replicate k (.ok []) ∧
        Pieces rs d := by
  rw [chunked_new]
  obtain ⟨d, h | ⟨e, h⟩⟩ := chunkT_shape c none (trace u)
  · exact .inl ⟨d, yields_of_trace h⟩
  · refine .inr ⟨d, e, failsAfter_of_trace (t := []) h, fun sizes hp hm => ?_⟩
    rcases failsAfter_then_ends (s := HttpBody.Chunked (HttpChunkedBody.new c n u)) h hp with ⟨p, _, _, h'⟩ | h'
    · omega
    · exact h'

end

/-- Witness for `C25_truncated` and `C25_exact`: cut in the middle of the CR LF after the last chunk. -/
example :
    let chs : List Chunk := [⟨b!"3", b!"abc", [13, 10]⟩]
    (∀ ch ∈ chs, ch.WellFormed) ∧ b!"3\r\nabc\r" <+: chunkedBytes chs b!"0" ∧ b!"3\r\nabc\r" ≠ chunkedBytes chs b!"0" ∧
    Delivers ⟨true⟩ (trace (Wire.mk [.data b!"3\r\nab", .data b!"c\r"])) b!"3\r\nabc\r" [] ∧ Ended ⟨true⟩ [] ∧
    trace (Wire.mk [.data b!"3\r\nab", .data b!"c\r"]) = b!"3\r\nabc\r".map .byte := by
  refine ⟨?_, ⟨b!"\n0\r\n", by decide⟩, by decide, delivers_map' _ b!"3\r\nabc\r", by simp [Ended], rfl⟩
  intro ch hch
  simp only [List.mem_cons, List.not_mem_nil, or_false] at hch
  rw [hch]
  exact ⟨⟨.inl (.one (.dec 3 (by omega) (by omega))), by decide, by decide, rfl⟩, rfl⟩

/-- Witness for `C26_retry_false`: an interrupted call in the middle of `hello`; everything needed arrives after it. -/
example : (Chunk.mk b!"5" b!"hello" [13, 10]).Sized ∧ b!"hello" = b!"he" ++ b!"llo" ∧
    Delivers ⟨true⟩ (trace (Wire.mk [.data b!"5\r\nhe", .fault (.io .interrupted), .data b!"llo\r\n0\r\n\r\n"]))
      (b!"5" ++ [13, 10]) (b!"he".map .byte ++ .fault (.io .interrupted) :: b!"llo\r\n0\r\n\r\n".map .byte) := by
  exact ⟨⟨.inl (.one (.dec 5 (by omega) (by omega))), by decide, by decide, rfl⟩, rfl, delivers_map _ b!"5\r\n" _⟩

/-! ### C27 -/

section
variable {ρ : Type} [LawfulReader ρ] [ZeroReader ρ]

/-- What a body with encoding `chunked` has become after the caller's calls. -/
theorem chunked_calls (c : Cfg) (n : Option Nat) (u : ρ) (sizes : List Nat) :
    ∃ b : HttpChunkedBody c ρ, (calls (HttpBody.new c (some b!"chunked") n u) sizes).2 = .Chunked b ∧ b.Exclusive := by
  rw [chunked_new, HttpBody.calls_chunked]
  exact ⟨_, rfl, HttpChunkedBody.calls_exclusive _ _ (.inl rfl)⟩

/-- The property is false in the strongest way: whatever was read before (`sizes`) and whatever data `d` remains, one
read with an empty buffer discards it all. -/
theorem C27_empty_read_false (c : Cfg) (n : Option Nat) (u : ρ) (sizes : List Nat) :
    let b := (calls (HttpBody.new c (some b!"chunked") n u) sizes).2
    Yields (read b 0).2 [] ∧ ∀ d, d ≠ [] → ¬ Yields (read b 0).2 d := by
  obtain ⟨b, hb, hx⟩ := chunked_calls c n u sizes
  dsimp only
  rw [hb]
  obtain ⟨h1, h2⟩ := HttpChunkedBody.readImpl_zero b hx
  have ht : trace (read (HttpBody.Chunked b) 0).2 = [] := HttpChunkedBody.trace_finished _ h1 h2
  refine ⟨yields_of_trace ht, fun d hd hy => hd ?_⟩
  have := trace_of_yields hy
  rw [ht] at this
  simpa using this.symm

/-- What does hold: when no data remains, a read with an empty buffer reports the end as any other would. Missing for
the full property: every state in which data remains. -/
theorem C27_finished_partial (c : Cfg) (n : Option Nat) (u : ρ) (sizes : List Nat) :
    let b := (calls (HttpBody.new c (some b!"chunked") n u) sizes).2
    Yields b [] → (read b 0).1 = .ok [] ∧ Yields (read b 0).2 [] := by
  obtain ⟨b, hb, hx⟩ := chunked_calls c n u sizes
  dsimp only
  intro hy
  refine ⟨?_, (C27_empty_read_false c n u sizes).1⟩
  rw [hb] at hy ⊢
  exact HttpChunkedBody.readImpl_zero_ok b (trace_of_yields hy) hx

/-- The other two kinds of body are not disturbed. -/
theorem C27_plain (c : Cfg) (enc : Option Bytes) (henc : enc ≠ some b!"chunked") (n : Option Nat) (u : ρ) (d : Bytes)
    (hy : Yields (HttpBody.new c enc n u) d) :
    (read (HttpBody.new c enc n u) 0).1 = .ok [] ∧ Yields (read (HttpBody.new c enc n u) 0).2 d := by
  have ht := trace_of_yields hy
  unfold HttpBody.new at ht ⊢
  rw [if_neg henc] at ht ⊢
  cases n with
  | none =>
    dsimp only at ht ⊢
    rw [HttpBody.trace_tilClose] at ht
    obtain ⟨u', h1, h2⟩ := read_zero_quiet (s := u) (by rw [ht]; cases d <;> simp)
    rw [HttpBody.read_def, HttpBody.readImpl, h1]
    exact ⟨rfl, yields_of_trace (by rw [HttpBody.trace_tilClose, h2, ht])⟩
  | some k =>
    dsimp only at ht ⊢
    rw [HttpBody.trace_limited] at ht
    dsimp only at ht
    rw [HttpBody.read_def, HttpBody.readImpl, Take.read_def, Take.readImpl]
    dsimp only
    by_cases hk : k = 0
    · rw [if_pos hk]
      exact ⟨rfl, yields_of_trace (by rw [HttpBody.trace_limited]; exact ht)⟩
    · rw [if_neg hk, Nat.zero_min]
      obtain ⟨u', h1, h2⟩ := read_zero_quiet (s := u) (by
        intro e t h
        obtain ⟨k, rfl⟩ : ∃ j, k = j + 1 := ⟨k - 1, by omega⟩
        rw [h, limitTrace] at ht
        cases d <;> simp at ht)
      rw [h1]
      exact ⟨rfl, yields_of_trace (by rw [HttpBody.trace_limited]; simpa [h2] using ht)⟩

/-! ### C28 -/

/-- The property is false: whatever two bytes follow the data of the chunks, the body is decoded without an error. -/
theorem C28_tail_false (c : Cfg) (n : Option Nat) (u : ρ) (chs : List Chunk) (last : Bytes) (rest : List Ev)
    (hs : ∀ ch ∈ chs, ch.Sized) (hl : UnsignedText 16 last 0) (ht : trace u = (chunkedBytes chs last).map .byte ++ rest) :
    Yields (HttpBody.new c (some b!"chunked") n u) (chunkedData chs) :=
  (decode_sized c n u chs last rest hs hl (by rw [ht]; exact deliversChunked_map c chs last rest)).1

/-- What does hold: if the stream ends before two bytes have followed the data of a chunk, that is reported as an error,
of kind UnexpectedEof, after the data. Missing for the full property: the values of the two bytes. -/
theorem C28_missing_partial (c : Cfg) (n : Option Nat) (u : ρ) (pre : List Chunk) (ch : Chunk) (x : Bytes) (t' : List Ev)
    (hs : ∀ ch ∈ pre, ch.Sized) (hc : ch.Sized) (hx : x.length < 2)
    (ht : trace u = ((pre.map Chunk.bytes).flatten ++ ch.size ++ [13, 10] ++ ch.data ++ x).map .byte ++ t')
    (he : Ended c t') :
    FailsAfter (HttpBody.new c (some b!"chunked") n u) (chunkedData pre ++ ch.data)
      (if c.std then .io .unexpectedEof else .unexpectedEof) := by
  show FailsAfter _ _ c.eofErr
  rw [chunked_new]
  apply failsAfter_of_trace (t := [])
  rw [HttpBody.trace_chunked, HttpChunkedBody.trace_new]
  exact chunkT_tail_missing hs hc hx ht he

/-! ### C29, C30, C31 -/

/-- The receiving side of a message with a content-length and no chunked coding. -/
theorem limited_new (c : Cfg) (enc : Option Bytes) (henc : enc ≠ some b!"chunked") (N : Nat) (u : ρ) :
    HttpBody.new c enc (some N) u = .Limited ⟨u, N⟩ := by
  unfold HttpBody.new; rw [if_neg henc]

/-- For every stream, every `N` and every schedule of reads: at most `N` bytes are delivered, `content_length` reports
what is left, nothing was taken from the stream but what the caller has seen, and the end is reported only when `N`
bytes were delivered or the stream is at its end. -/
theorem C29_exact (c : Cfg) (enc : Option Bytes) (henc : enc ≠ some b!"chunked") (N : Nat) (u : ρ) (sizes : List Nat)
    (hp : Positive sizes) :
    let out := calls (HttpBody.new c enc (some N) u) sizes
    (received out.1).length ≤ N ∧ out.2.contentLength = some (N - (received out.1).length) ∧
    ∃ s, out.2.under = some s ∧ trace u = seen out.1 ++ trace s ∧
      (.ok [] ∈ out.1 → (received out.1).length = N ∨ trace s = []) := by
  dsimp only
  rw [limited_new c enc henc, HttpBody.calls_limited]
  obtain ⟨h1, h2, h3⟩ := Take.calls (Take.mk u N) hp
  dsimp only at h1 h2 h3 ⊢
  refine ⟨by omega, ?_, _, rfl, h1, fun h => ?_⟩
  · simp only [HttpBody.contentLength, Option.some.injEq]; omega
  · rcases h3 h with h | h
    · left; omega
    · exact .inr h

theorem limitTrace_bytes (N : Nat) (bs : Bytes) : limitTrace N (bs.map .byte) = (bs.take N).map .byte := by
  induction bs generalizing N with
  | nil => cases N <;> simp [limitTrace]
  | cons b bs ih => cases N <;> simp [limitTrace, ih]

theorem limitTrace_more (N : Nat) (bs : Bytes) (h : N ≤ bs.length) (t : List Ev) :
    limitTrace N (bs.map .byte ++ t) = (bs.take N).map .byte := by
  induction bs generalizing N with
  | nil => obtain rfl : N = 0 := by simpa using h
           simp [limitTrace]
  | cons b bs ih =>
    cases N with
    | zero => simp [limitTrace]
    | succ N => simp [limitTrace, ih N (by simpa using h)]

/-- Over a stream without failures (at least among its first `N` bytes) the caller gets exactly the first `N` bytes, or
all there are, and then the end. -/
theorem C29_yields (c : Cfg) (enc : Option Bytes) (henc : enc ≠ some b!"chunked") (N : Nat) (u : ρ) (bs : Bytes)
    (t : List Ev) (ht : trace u = bs.map .byte ++ t) (h : t = [] ∨ N ≤ bs.length) :
    Yields (HttpBody.new c enc (some N) u) (bs.take N) := by
  rw [limited_new c enc henc]
  apply yields_of_trace
  rw [HttpBody.trace_limited]
  dsimp only
  rw [ht]
  rcases h with rfl | h
  · rw [List.append_nil, limitTrace_bytes]
  · exact limitTrace_more N bs h t

/-- The property is false: whenever the stream ends early, the caller gets what there is and then a clean end. -/
theorem C30_truncated_false (c : Cfg) (enc : Option Bytes) (henc : enc ≠ some b!"chunked") (N : Nat) (u : ρ) (bs : Bytes)
    (ht : trace u = bs.map .byte) (hlt : bs.length < N) :
    Yields (HttpBody.new c enc (some N) u) bs := by
  have := C29_yields c enc henc N u bs [] (by simpa using ht) (.inl rfl)
  rwa [List.take_of_length_le (by omega)] at this

/-- What does hold: a caller who asks can tell. After the end was reported, `content_length` is positive exactly if the
stream ended before `N` bytes. Missing for the full property: an error from `read`. -/
theorem C30_detectable_partial (c : Cfg) (enc : Option Bytes) (henc : enc ≠ some b!"chunked") (N : Nat) (u : ρ)
    (bs : Bytes) (t : List Ev) (ht : trace u = bs.map .byte ++ t) (h : t = [] ∨ N ≤ bs.length) (sizes : List Nat)
    (hp : Positive sizes) (he : .ok [] ∈ (calls (HttpBody.new c enc (some N) u) sizes).1) :
    (calls (HttpBody.new c enc (some N) u) sizes).2.contentLength = some (N - bs.length) := by
  obtain ⟨_, h2, _⟩ := C29_exact c enc henc N u sizes hp
  rw [h2]
  rcases C29_yields c enc henc N u bs t ht h sizes hp with ⟨p, ⟨xs, h3, h4, _⟩, _⟩ | ⟨rs, k, h3, h4⟩
  · rw [h3] at he
    simp only [List.mem_map, Except.ok.injEq, exists_eq_right] at he
    exact absurd rfl (h4 _ he)
  · rw [h3, received_append, received_replicate, h4.received]
    simp only [List.append_nil, List.length_take, Option.some.injEq]
    omega

theorem bytesOf_append (a b : List Ev) : bytesOf (a ++ b) = bytesOf a ++ bytesOf b := by
  induction a with
  | nil => rfl
  | cons ev a ih => cases ev <;> simp [bytesOf, ih]

/-- Whatever failures the transport reports, a caller that keeps reading sees each once, in its place among the data,
and gets the first `N` bytes: `seen` is a prefix of the transport's events. -/
theorem C31_limited (c : Cfg) (enc : Option Bytes) (henc : enc ≠ some b!"chunked") (N : Nat) (u : ρ) (sizes : List Nat)
    (hp : Positive sizes) (hlong : (trace u).length < sizes.length) :
    let rs := (calls (HttpBody.new c enc (some N) u) sizes).1
    seen rs <+: trace u ∧ received rs = (bytesOf (trace u)).take N := by
  obtain ⟨h1, h2, s, h3, h4, h5⟩ := C29_exact c enc henc N u sizes hp
  dsimp only at h1 h2 h4 h5 ⊢
  refine ⟨⟨_, h4.symm⟩, ?_⟩
  obtain ⟨h6, h7, h8⟩ := calls_seen (HttpBody.new c enc (some N) u) hp
  have hnil : trace (calls (HttpBody.new c enc (some N) u) sizes).2 = [] := by
    apply Classical.byContradiction
    intro hne
    have := h8 hne
    have hlen := congrArg List.length h4
    rw [List.length_append] at hlen
    omega
  have hend : .ok [] ∈ (calls (HttpBody.new c enc (some N) u) sizes).1 ∨
      (received (calls (HttpBody.new c enc (some N) u) sizes).1).length = N ∨ trace s = [] := by
    right
    rw [limited_new c enc henc, HttpBody.calls_limited] at hnil h3 ⊢
    obtain ⟨g1, g2, g3⟩ := Take.calls (Take.mk u N) hp
    simp only [HttpBody.under, Option.some.injEq] at h3
    dsimp only at g2 ⊢
    rw [HttpBody.trace_limited, h3] at hnil
    cases hl : (calls (Take.mk u N) sizes).2.limit with
    | zero => left; omega
    | succ k =>
      right
      rw [hl] at hnil
      cases hts : trace s with
      | nil => rfl
      | cons ev t => rw [hts] at hnil; cases ev <;> simp [limitTrace] at hnil
  have hres : (received (calls (HttpBody.new c enc (some N) u) sizes).1).length = N ∨ trace s = [] := by
    rcases hend with h | h
    · exact h5 h
    · exact h
  rw [h4, bytesOf_append, seen_length]
  rcases hres with h | h
  · rw [List.take_append_of_le_length (by omega), List.take_of_length_le (by omega)]
  · rw [h]; simp only [bytesOf, List.append_nil]
    rw [List.take_of_length_le h1]

/-- The same for a body that runs to the end of the stream: all events are seen. -/
theorem C31_until_close (c : Cfg) (enc : Option Bytes) (henc : enc ≠ some b!"chunked") (u : ρ) (sizes : List Nat)
    (hp : Positive sizes) (hlong : (trace u).length < sizes.length) :
    let rs := (calls (HttpBody.new c enc none u) sizes).1
    seen rs = trace u ∧ received rs = bytesOf (trace u) := by
  dsimp only
  have hnew : HttpBody.new c enc none u = .ReadTilClose u := by unfold HttpBody.new; rw [if_neg henc]
  have htr : trace (HttpBody.new c enc none u) = trace u := by rw [hnew]; rfl
  obtain ⟨h6, h7, h8⟩ := calls_seen (HttpBody.new c enc none u) hp
  have hnil : trace (calls (HttpBody.new c enc none u) sizes).2 = [] := by
    apply Classical.byContradiction
    intro hne
    have := h8 hne
    have hlen := congrArg List.length h6
    rw [List.length_append, htr] at hlen
    omega
  rw [hnil, List.append_nil, htr] at h6
  rw [← seen_length, ← h6]
  exact ⟨rfl, rfl⟩

end

/-- Witness for `C27_empty_read_false`: `hello` would be delivered, but not after an empty read, which fails. -/
example : let b := HttpBody.new ⟨true⟩ (some b!"chunked") none (Wire.mk [.data b!"5\r\nhello\r\n0\r\n\r\n"])
    received (calls b [9, 9]).1 = b!"hello" ∧ (read b 0).1 = .error (.io (.other 0)) ∧
      received (calls (read b 0).2 [9, 9]).1 = [] := by decide +kernel

/-- Witness for `C28_tail_false`. -/
example : let chs : List Chunk := [⟨b!"3", b!"abc", b!"XX"⟩, ⟨b!"1", b!"d", b!"\n\r"⟩]
    (∀ ch ∈ chs, ch.Sized) ∧ (∀ ch ∈ chs, ¬ ch.WellFormed) ∧ UnsignedText 16 b!"0" 0 ∧
    trace (Wire.mk [.data b!"3\r\nabcXX1\r\n", .data b!"d\n\r0\r\n"]) = (chunkedBytes chs b!"0").map .byte ++ [] := by
  refine ⟨?_, ?_, .inl (.one (.dec 0 (by omega) (by omega))), rfl⟩
  · intro ch hch
    simp only [List.mem_cons, List.not_mem_nil, or_false] at hch
    rcases hch with rfl | rfl
    · exact ⟨.inl (.one (.dec 3 (by omega) (by omega))), by decide, by decide, rfl⟩
    · exact ⟨.inl (.one (.dec 1 (by omega) (by omega))), by decide, by decide, rfl⟩
  · intro ch hch h
    simp only [List.mem_cons, List.not_mem_nil, or_false] at hch
    have := h.2
    rcases hch with rfl | rfl <;> simp at this

/-- Witness for `C28_missing_partial`: `2 CRLF ab CRLF 3 CRLF abc CR` and then the end. -/
example : let pre : List Chunk := [⟨b!"2", b!"ab", [13, 10]⟩]
    let ch : Chunk := ⟨b!"3", b!"abc", [13, 10]⟩
    ch.Sized ∧ ([13] : Bytes).length < 2 ∧
    trace (Wire.mk [.data b!"2\r\nab\r\n3", .data b!"\r\nabc\r"]) =
      ((pre.map Chunk.bytes).flatten ++ ch.size ++ [13, 10] ++ ch.data ++ [13]).map .byte ++ [] ∧ Ended ⟨false⟩ [] :=
  ⟨⟨.inl (.one (.dec 3 (by omega) (by omega))), by decide, by decide, rfl⟩, by decide, rfl, by simp [Ended]⟩

/-- Witness for C29, C31: a stream with a failure in the middle, a limit of 4 bytes, reads of sizes 3, 3, 3, …; the next
message's bytes stay in the stream. -/
example : let u := Wire.mk [.data b!"ab", .fault (.io .interrupted), .data b!"cdNEXT"]
    let out := calls (HttpBody.new ⟨true⟩ none (some 4) u) [3, 3, 3, 3]
    seen out.1 = [.byte 97, .byte 98, .fault (.io .interrupted), .byte 99, .byte 100] ∧
      out.2.contentLength = some 0 ∧ out.2.under.map trace = some (b!"NEXT".map .byte) := by decide +kernel

/-- Witness for C30: 3 bytes arrive of 5. -/
example : let u := Wire.mk [.data b!"abc"]
    let out := calls (HttpBody.new ⟨false⟩ none (some 5) u) [9, 9]
    out.1.map Except.toOption = [some b!"abc", some []] ∧ out.2.contentLength = some 2 := by decide +kernel

end HttpIo
