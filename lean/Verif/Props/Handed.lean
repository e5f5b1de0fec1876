import Verif.Model.Client
import Verif.Lemmas.Handed
import Verif.Spec.EndToEnd

/-! C124: with which calls a message is handed to the transport. -/

namespace HttpIo
open Spec

section
variable {c : Cfg} {σ ρ τ : Type} [Writer σ]

/-- Without `std` every request, of any size, is handed to the transport in many small writes: the parts of its head, of
its chunks, and of the end of its body, each with a call of its own; then one flush. -/
theorem C124_unbuffered (hs : c.std = false) (r : HttpRequest c τ) (hv : r.version = ⟨1, 1⟩) (cs : List WCall) (hn : NoFlush cs)
    (hlen : ∀ buf ∈ written cs, buf.length < 2 ^ 64) :
    (¬ Carries r.method → ∀ s s' : σ,
      perform s (writesOf (requestParts r.method r.uri r.headers.entries) ++ [.flush]) = (true, s') →
      ∃ o, r.serialize (BufWriter.new c s) = .ok o ∧ o.complete = .ok s') ∧
    (Carries r.method → ∃ chs, ChunksFor chs (written cs) ∧ ∀ s s' : σ,
      perform s (writesOf (requestParts r.method r.uri r.headers.entries ++ chs.flatMap chunkParts) ++
        [.write (utf8 "0\r\n\r\n"), .flush]) = (true, s') →
      ∃ o o', r.serialize (BufWriter.new c s) = .ok o ∧ perform o cs = (true, o') ∧ o'.complete = .ok s') := by
  have hh := request_parts r hv
  refine ⟨fun hm s s' h => ?_, fun hm => ⟨_, chunkOf_for _ hlen, fun s s' h => ?_⟩⟩
  · have hb : ¬ r.method.hasBody = true := by
      intro hb; apply hm; revert hb; cases r.method <;> simp [HttpMethod.hasBody, Carries]
    obtain ⟨s1, h1, h2⟩ := perform_append h
    obtain ⟨s2, h3, h4⟩ := perform_flush h2
    unfold HttpRequest.serialize
    rw [hh, writePieces_writes (bufWriter_plain hs) (bufWriter_perform hs (w := BufWriter.new c s) h1)]
    dsimp only
    rw [if_neg hb]
    unfold BufWriter.intoInner
    rw [if_neg (by simp [hs])]
    dsimp only
    refine ⟨_, rfl, ?_⟩
    unfold OutgoingRequest.complete
    dsimp only
    rw [h3]
    exact congrArg _ (perform_nil h4)
  · have hb : r.method.hasBody = true := by rcases hm with hm | hm | hm <;> rw [hm] <;> rfl
    obtain ⟨s1, h1, h2⟩ := perform_append h
    rw [writesOf_append] at h1
    obtain ⟨s2, h3, h4⟩ := perform_append h1
    rw [show utf8 "0\r\n\r\n" = b!"0\r\n\r\n" by decide +kernel,
      show ([.write b!"0\r\n\r\n", .flush] : List WCall) = writesOf [b!"0\r\n\r\n"] ++ [.flush] from rfl] at h2
    obtain ⟨s3, h5, h6⟩ := perform_append h2
    obtain ⟨s4, h7, h8⟩ := perform_flush h6
    unfold HttpRequest.serialize
    rw [hh, writePieces_writes (bufWriter_plain hs) (bufWriter_perform hs (w := BufWriter.new c s) h3)]
    dsimp only
    rw [if_pos hb]
    refine ⟨_, .WithBody ⟨⟨s1, []⟩⟩, rfl, ?_, ?_⟩
    · rw [perform_withBody, outgoingBody_writes hs hn (b := ⟨⟨s2, _⟩⟩) (bufWriter_perform hs h4)]; rfl
    · unfold OutgoingRequest.complete
      dsimp only
      rw [writePieces_writes (bufWriter_plain hs) (bufWriter_perform hs (w := ⟨s1, _⟩) h5)]
      dsimp only
      rw [bufWriter_flush hs, h7]
      dsimp only
      unfold BufWriter.intoInner
      rw [if_neg (by simp [hs])]
      exact congrArg _ (perform_nil h8)

/-- With `std` a request that takes less than 8 KiB in all, head and body, is handed to the transport with a single write,
followed by one flush, however many writes the caller made. -/
theorem C124_buffered (hs : c.std = true) (r : HttpRequest c τ) (hv : r.version = ⟨1, 1⟩) (cs : List WCall) (hn : NoFlush cs) :
    (¬ Carries r.method → (requestHead r.method r.uri r.headers.entries).length < 8192 → ∀ s s' : σ,
      perform s [.write (requestHead r.method r.uri r.headers.entries), .flush] = (true, s') →
      ∃ o, r.serialize (BufWriter.new c s) = .ok o ∧ o.complete = .ok s') ∧
    (Carries r.method → (requestHead r.method r.uri r.headers.entries).length + uploadSize (written cs) < 8192 →
      ∃ chs, ChunksFor chs (written cs) ∧ ∀ s s' : σ,
      perform s [.write (requestHead r.method r.uri r.headers.entries ++ chunkedBytes chs (utf8 "0") ++ [13, 10]), .flush] = (true, s') →
      ∃ o o', r.serialize (BufWriter.new c s) = .ok o ∧ perform o cs = (true, o') ∧ o'.complete = .ok s') := by
  have hh := request_headPieces r hv
  have hne : requestHead r.method r.uri r.headers.entries ≠ [] := by unfold requestHead; simp
  refine ⟨fun hm hl s s' h => ?_, fun hm hl => ?_⟩
  · have hb : ¬ r.method.hasBody = true := by
      intro hb; apply hm; revert hb; cases r.method <;> simp [HttpMethod.hasBody, Carries]
    obtain ⟨s1, h1, h2⟩ := perform_write h
    obtain ⟨s2, h3, h4⟩ := perform_flush h2
    unfold HttpRequest.serialize
    rw [writePieces_short hs (by rw [hh]; simpa [BufWriter.new, bufCap] using hl), hh]
    dsimp only
    rw [if_neg hb]
    unfold BufWriter.intoInner BufWriter.flushBuf
    rw [if_pos hs]
    dsimp only [BufWriter.new]
    rw [List.nil_append, writeLoop_whole hne h1]
    refine ⟨_, rfl, ?_⟩
    unfold OutgoingRequest.complete
    dsimp only
    rw [h3]
    exact congrArg _ (perform_nil h4)
  · have hb : r.method.hasBody = true := by rcases hm with hm | hm | hm <;> rw [hm] <;> rfl
    have hup := upload_length (written cs)
    rw [List.length_append, show (b!"0\r\n\r\n").length = 5 from rfl] at hup
    refine ⟨_, chunkOf_for _ ?_, fun s s' h => ?_⟩
    · intro buf hbuf
      have h1 : (emitted buf).length ≤ ((written cs).map emitted).flatten.length :=
        (List.sublist_flatten_of_mem (List.mem_map_of_mem hbuf)).length_le
      by_cases h0 : buf = []
      · rw [h0]; decide
      · rw [emitted_length buf h0] at h1
        omega
    · unfold chunkedBytes at h
      rw [chunkOf_emitted, show utf8 "0" = b!"0" by decide +kernel] at h
      obtain ⟨s1, h1, h2⟩ := perform_write h
      obtain ⟨s2, h3, h4⟩ := perform_flush h2
      unfold HttpRequest.serialize
      rw [writePieces_short hs (by rw [hh]; simp [BufWriter.new, bufCap]; omega), hh]
      dsimp only
      rw [if_pos hb]
      refine ⟨_, .WithBody ⟨⟨s, requestHead r.method r.uri r.headers.entries ++ ((written cs).map emitted).flatten⟩⟩, rfl, ?_, ?_⟩
      · rw [perform_withBody, outgoingBody_short hs hn (by simp only [BufWriter.new, List.nil_append, bufCap]; omega)]; rfl
      · unfold OutgoingRequest.complete
        dsimp only [BufWriter.new]
        rw [writePieces_short hs (by
          simp only [List.nil_append, List.length_append, List.flatten_cons, List.flatten_nil, bufCap, List.length_nil,
            show (b!"0\r\n\r\n").length = 5 from rfl]
          omega)]
        dsimp only
        rw [show flush (BufWriter.mk _ _ : BufWriter c σ) = BufWriter.flushImpl _ from rfl]
        unfold BufWriter.flushImpl BufWriter.flushBuf
        rw [if_pos hs]
        dsimp only
        rw [writeLoop_whole (s1 := s1) (by simp [hne]) (by
          rw [show [b!"0\r\n\r\n"].flatten = b!"0" ++ [13, 10] ++ [13, 10] from rfl]
          simpa using h1)]
        dsimp only
        rw [h3]
        dsimp only
        unfold BufWriter.intoInner BufWriter.flushBuf
        rw [if_pos hs]
        dsimp only
        unfold writeLoop
        rw [dif_pos rfl]
        exact congrArg _ (perform_nil h4)

/-- The same of what `HttpRequestBuilder::send` hands over: nothing goes before the one write. -/
theorem C124_builder (hs : c.std = true) (b : HttpRequestBuilder c) (hv : b.request.version = ⟨1, 1⟩) (cs : List WCall) (hn : NoFlush cs) :
    (¬ Carries b.request.method → (requestHead b.request.method b.request.uri b.request.headers.entries).length < 8192 → ∀ s s' : σ,
      perform s [.write (requestHead b.request.method b.request.uri b.request.headers.entries), .flush] = (true, s') →
      ∃ o, b.send s = .ok o ∧ o.complete = .ok s') ∧
    (Carries b.request.method →
      (requestHead b.request.method b.request.uri b.request.headers.entries).length + uploadSize (written cs) < 8192 →
      ∃ chs, ChunksFor chs (written cs) ∧ ∀ s s' : σ,
      perform s [.write (requestHead b.request.method b.request.uri b.request.headers.entries ++ chunkedBytes chs (utf8 "0") ++
        [13, 10]), .flush] = (true, s') →
      ∃ o o', b.send s = .ok o ∧ perform o cs = (true, o') ∧ o'.complete = .ok s') :=
  C124_buffered hs b.request hv cs hn

end

theorem recorder_perform (s : Recorder) (cs : List WCall) : perform s cs = (true, ⟨s.log ++ cs⟩) := by
  induction cs generalizing s with
  | nil => rw [perform, List.append_nil]
  | cons x cs ih =>
    cases x with
    | write buf =>
      rw [perform]
      show (if buf.length = buf.length then perform (⟨s.log ++ [.write buf]⟩ : Recorder) cs else _) = _
      rw [if_pos rfl, ih]; simp
    | flush =>
      rw [perform]
      show perform (⟨s.log ++ [.flush]⟩ : Recorder) cs = _
      rw [ih]; simp

section
variable {c : Cfg} {σ τ : Type} [LawfulWriter σ]

/-- The head of a response goes to the transport part by part, in either build. -/
theorem C124_response_partial (hp : PlainWriteAll σ) (r : HttpResponse c τ) (hv : r.version = ⟨1, 1⟩) (s s' : σ)
    (h : perform s (writesOf (responseParts r.status.display r.headers.entries)) = (true, s')) : r.serialize s = (.ok (), s') := by
  unfold HttpResponse.serialize
  rw [response_parts r hv]
  exact writePieces_writes (fun s buf => hp c s buf) h

/-- So no response, however small, has its head handed to the transport in one write. -/
theorem C124_response_false (r : HttpResponse c τ) (hv : r.version = ⟨1, 1⟩) :
    ¬ ∃ head, (r.serialize (⟨[]⟩ : Recorder)).2.log = [.write head] := by
  rintro ⟨head, h⟩
  rw [C124_response_partial Recorder.plain r hv ⟨[]⟩ _ (recorder_perform _ _)] at h
  have h1 : writesOf (responseParts r.status.display r.headers.entries) =
      writesOf [utf8 "HTTP/", utf8 "1"] ++ writesOf ([utf8 ".", utf8 "1"] ++ [[32], r.status.display, [13, 10]] ++
        headerParts r.headers.entries ++ [[13, 10]]) := by
    rw [← writesOf_append]; unfold responseParts versionParts; simp
  have h2 : writesOf [utf8 "HTTP/", utf8 "1"] = [.write (utf8 "HTTP/"), .write (utf8 "1")] := by decide +kernel
  rw [h1, h2] at h
  simp at h

end

section
variable {c : Cfg} {σ ρ : Type} [LawfulWriter σ] [LawfulReader ρ] [ZeroReader ρ]

/-- A whole response: the parts of the head, then the body in the pieces in which it is read, a write for each; no flush. -/
theorem C124_respond_partial (hp : PlainWriteAll σ) (r : ServerResponse c ρ) (hv : r.version = ⟨1, 1⟩) (bs : Bytes) (t : List Ev)
    (hd : Delivers c (trace r.body) bs t) (he : Ended c t) :
    ∃ xs : List Bytes, (∀ x ∈ xs, x ≠ []) ∧ xs.flatten = bs ∧ ∀ s s' : σ,
      perform s (writesOf (responseParts r.status.display r.headers.entries) ++ xs.map .write) = (true, s') →
      ∃ b, respond c r s = (.ok (), b, s') := by
  obtain ⟨xs, r', h1, h2, h3⟩ := copy_writes (c := c) hp _ r.body rfl hd he
  refine ⟨xs, h1, h2, fun s s' h => ⟨r', ?_⟩⟩
  obtain ⟨s1, h4, h5⟩ := perform_append h
  unfold respond
  rw [C124_response_partial hp r hv s s1 h4]
  dsimp only
  rw [h3 s1 s' 0 h5]

end

/-- Without `std` a request is not handed over in one write either. -/
theorem C124_request_false {τ : Type} {c : Cfg} (hs : c.std = false) (r : HttpRequest c τ) (hv : r.version = ⟨1, 1⟩) (hm : ¬ Carries r.method) :
    ∃ o s', r.serialize (BufWriter.new c (⟨[]⟩ : Recorder)) = .ok o ∧ o.complete = .ok s' ∧
      ¬ ∃ bs, s'.log = [.write bs, .flush] := by
  obtain ⟨o, h1, h2⟩ := (C124_unbuffered (σ := Recorder) hs r hv [] (by simp [NoFlush]) (by simp [written])).1 hm ⟨[]⟩ _ (recorder_perform _ _)
  refine ⟨o, _, h1, h2, ?_⟩
  rintro ⟨bs, h⟩
  have h3 : writesOf (requestParts r.method r.uri r.headers.entries) =
      writesOf [utf8 (methodName r.method), [32]] ++ writesOf ([r.uri, [32]] ++ versionParts ++ [[13, 10]] ++
        headerParts r.headers.entries ++ [[13, 10]]) := by
    rw [← writesOf_append]; unfold requestParts; simp
  have h4 : ∀ m, writesOf [utf8 (methodName m), [32]] = [.write (utf8 (methodName m)), .write [32]] := by
    intro m; cases m <;> decide +kernel
  rw [h3, h4] at h
  simp at h

/-! ### Concrete cases -/

/-- A `PUT` whose caller writes twice (and once nothing): one write with `std`, fifteen without, even for one. -/
example : let _ := asciiCase
    let r : HttpRequest ⟨true⟩ EmptyReader := ⟨.Put, b!"/x", ⟨1, 1⟩, ⟨[(b!"transfer-encoding", b!"chunked")]⟩, .ReadTilClose ⟨⟩⟩
    (match r.serialize (BufWriter.new ⟨true⟩ (⟨[]⟩ : Recorder)) with
      | .ok o =>
        match perform o [.write b!"ab", .write [], .write b!"c"] with
        | (true, o) => (match o.complete with | .ok s => some s.log | .error _ => none)
        | _ => none
      | .error _ => none) =
    some [.write b!"PUT /x HTTP/1.1\r\ntransfer-encoding: chunked\r\n\r\n2\r\nab\r\n1\r\nc\r\n0\r\n\r\n", .flush] := by
  decide +kernel

example : let r : HttpRequest ⟨false⟩ EmptyReader := ⟨.Put, b!"/x", ⟨1, 1⟩, ⟨[]⟩, .ReadTilClose ⟨⟩⟩
    (match r.serialize (BufWriter.new ⟨false⟩ (⟨[]⟩ : Recorder)) with
      | .ok o =>
        match perform o [.write b!"ab", .write []] with
        | (true, o) => (match o.complete with | .ok s => some s.log | .error _ => none)
        | _ => none
      | .error _ => none) =
    some [.write b!"PUT", .write b!" ", .write b!"/x", .write b!" ", .write b!"HTTP/", .write b!"1", .write b!".", .write b!"1",
      .write b!"\r\n", .write b!"\r\n", .write b!"2", .write b!"\r\n", .write b!"ab", .write b!"\r\n", .write b!"0\r\n\r\n",
      .flush] := by
  decide +kernel

/-- The hypotheses of `C124_buffered`, `C124_builder` and `C124_unbuffered`. -/
example : NoFlush [.write b!"ab", .write []] ∧ Carries .Put ∧ ¬ Carries .Get ∧
    (requestHead .Put b!"/x" []).length + uploadSize (written [.write b!"ab", .write []]) < 8192 ∧
    (requestHead .Get b!"/x" []).length < 8192 ∧
    perform (⟨[]⟩ : Recorder) [.write b!"x", .flush] = (true, ⟨[.write b!"x", .flush]⟩) := by
  refine ⟨by unfold NoFlush; decide, .inr (.inr rfl), by unfold Carries; decide, by decide +kernel, by decide +kernel,
    recorder_perform _ _⟩

/-- A response without a single header, whose body arrives in two pieces: ten writes, in either build, and no flush. -/
example : ∀ c : Cfg, (respond c (HttpResponse.new c .OK (.B ⟨[.data b!"ab", .data b!"c"]⟩) : ServerResponse c Wire) (⟨[]⟩ : Recorder)).2.2.log =
    [.write b!"HTTP/", .write b!"1", .write b!".", .write b!"1", .write b!" ", .write b!"200 OK", .write b!"\r\n", .write b!"\r\n",
      .write b!"ab", .write b!"c"] := by
  intro c; rcases c with ⟨_ | _⟩ <;> decide +kernel

/-- The hypotheses of `C124_respond_partial`. -/
example (c : Cfg) : let r : ServerResponse c Wire := HttpResponse.new c .OK (.B ⟨[.data b!"ab", .data b!"c"]⟩)
    PlainWriteAll Recorder ∧ r.version = ⟨1, 1⟩ ∧ Delivers c (trace r.body) b!"abc" [] ∧ Ended c [] := by
  refine ⟨Recorder.plain, rfl, ?_, by simp [Ended]⟩
  have : trace (HttpResponse.new c .OK (.B ⟨[.data b!"ab", .data b!"c"]⟩) : ServerResponse c Wire).body = b!"abc".map .byte := by
    rcases c with ⟨_ | _⟩ <;> decide +kernel
  rw [this]
  simpa using delivers_map c b!"abc" []

/-- A flush by the caller sends what there is so far: then there are more writes. -/
example : let r : HttpRequest ⟨true⟩ EmptyReader := ⟨.Put, b!"/x", ⟨1, 1⟩, ⟨[]⟩, .ReadTilClose ⟨⟩⟩
    (match r.serialize (BufWriter.new ⟨true⟩ (⟨[]⟩ : Recorder)) with
      | .ok o =>
        match perform o [.flush, .write b!"c"] with
        | (true, o) => (match o.complete with | .ok s => some s.log | .error _ => none)
        | _ => none
      | .error _ => none) =
    some [.write b!"PUT /x HTTP/1.1\r\n\r\n", .flush, .write b!"1\r\nc\r\n0\r\n\r\n", .flush] := by
  decide +kernel

end HttpIo
