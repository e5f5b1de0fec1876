import Verif.Lemmas.Message
import Verif.Props.Head
import Verif.Props.Headers

/-! C11, C18, C19, C20, C21, C32: messages. -/

namespace HttpIo
open Spec

/-! ### C18 -/

theorem utf8_http11 : utf8 "HTTP/1.1" = b!"HTTP/1.1" := by decide +kernel

theorem HttpRequest.headPieces_flatten {c : Cfg} {ρ : Type} (r : HttpRequest c ρ) : r.headPieces.flatten =
    r.method.display ++ [32] ++ r.uri ++ [32] ++ r.version.display ++ [13, 10] ++ headerText r.headers.entries ++ [13, 10] := by
  unfold HttpRequest.headPieces
  simp only [List.flatten_append, pieces_flatten, HttpVersion.pieces_flatten]
  simp

theorem HttpResponse.headPieces_flatten {c : Cfg} {ρ : Type} (r : HttpResponse c ρ) : r.headPieces.flatten =
    r.version.display ++ [32] ++ r.status.display ++ [13, 10] ++ headerText r.headers.entries ++ [13, 10] := by
  unfold HttpResponse.headPieces
  simp only [List.flatten_append, pieces_flatten, HttpVersion.pieces_flatten]
  simp

theorem request_headPieces {c : Cfg} {ρ : Type} (r : HttpRequest c ρ) (hv : r.version = ⟨1, 1⟩) :
    r.headPieces.flatten = requestHead r.method r.uri r.headers.entries := by
  unfold requestHead
  rw [r.headPieces_flatten, utf8_http11, hv]
  have h1 : HttpVersion.display ⟨1, 1⟩ = b!"HTTP/1.1" := by decide +kernel
  rw [h1, methodName_bytes]

theorem request_serialized_sent {c : Cfg} {ρ σ : Type} [LawfulWriter σ] (r : HttpRequest c ρ) (s : σ)
    (o : OutgoingRequest c σ) (h : r.serialize (BufWriter.new c s) = .ok o) :
    outgoingSent o = sent s ++ r.headPieces.flatten ∧
    ((∃ b, o = .WithBody b) ↔ r.method = .Delete ∨ r.method = .Post ∨ r.method = .Put) := by
  unfold HttpRequest.serialize at h
  rcases hw : writePieces c (BufWriter.new c s) r.headPieces with ⟨_ | _, w⟩
  · rw [hw] at h; simp at h
  · rw [hw] at h
    dsimp only at h
    obtain ⟨_, p, _, h2, h3⟩ := writePieces_sent hw
    rw [h3 rfl, BufWriter.sent_new] at h2
    by_cases hb : r.method.hasBody = true
    · rw [if_pos hb] at h
      simp only [Except.ok.injEq] at h
      subst h
      refine ⟨h2, ⟨fun _ => ?_, fun _ => ⟨_, rfl⟩⟩⟩
      revert hb; cases r.method <;> simp [HttpMethod.hasBody]
    · rw [if_neg hb] at h
      cases hi : w.intoInner with
      | error x => rw [hi] at h; simp at h
      | ok s' =>
        rw [hi] at h
        simp only [Except.ok.injEq] at h
        subst h
        refine ⟨?_, ⟨by simp, ?_⟩⟩
        · show sent s' = _
          rw [(BufWriter.intoInner_ok hi).1]; exact h2
        · rintro (he | he | he) <;> (rw [he] at hb; exact absurd rfl hb)

/-- What serializing a request puts on the writer, whatever the writer accepts per call: the head and nothing
else. The caller gets a body writer exactly for the methods that carry a body. -/
theorem C18_serialized {c : Cfg} {ρ σ : Type} [LawfulWriter σ] (r : HttpRequest c ρ) (s : σ)
    (hv : r.version = ⟨1, 1⟩) (o : OutgoingRequest c σ) (h : r.serialize (BufWriter.new c s) = .ok o) :
    outgoingSent o = sent s ++ requestHead r.method r.uri r.headers.entries ∧
    ((∃ b, o = .WithBody b) ↔ r.method = .Delete ∨ r.method = .Post ∨ r.method = .Put) := by
  rw [← request_headPieces r hv]
  exact request_serialized_sent r s o h

/-- The head of a request, delivered by any transport, is parsed to the same request; the body starts with what
follows. -/
theorem C18_roundtrip [CaseMap] {σ : Type} [LawfulReader σ] (c : Cfg) (s : σ) (m : HttpMethod) (target : Bytes)
    (headers : HttpHeaders) (rest : List Ev) (ht : SendableTarget target) (hh : SendableHeaders headers.entries)
    (hl : LengthOk headers.entries)
    (hd : Delivers c (trace s) (requestHead m target headers.entries) rest) :
    ∃ r s', HttpRequest.deserialize c s = (.ok r, s') ∧ r.method = m ∧ r.uri = target ∧ r.version = ⟨1, 1⟩ ∧
      r.headers = headers ∧ FramedBy headers.entries (framing r.body) ∧ r.body.under = some s' ∧ trace s' = rest := by
  unfold requestHead at hd
  rw [utf8_http11] at hd
  have hline : RawLine (utf8 (methodName m) ++ [32] ++ target ++ [32] ++ b!"HTTP/1.1") := by
    obtain ⟨_, t2, _, _, t5⟩ := ht
    have hmt : IsText (utf8 (methodName m)) := by
      rw [methodName_bytes]; exact isText_ascii (by cases m <;> decide)
    have hmc : ¬ HasCrLf (utf8 (methodName m)) := by
      rw [methodName_bytes]; unfold HasCrLf; cases m <;> decide
    refine ⟨by simp, ?_, ?_⟩
    · rw [show utf8 (methodName m) ++ [32] ++ target ++ [32] ++ b!"HTTP/1.1" =
        utf8 (methodName m) ++ 32 :: (target ++ 32 :: b!"HTTP/1.1") by simp]
      exact not_hasCrLf_join (by decide) (by decide) hmc
        (not_hasCrLf_join (by decide) (by decide) t5 (by unfold HasCrLf; decide))
    · exact isText_append (isText_append (isText_append (isText_append hmt (isText_ascii (by decide))) t2)
        (isText_ascii (by decide))) (isText_ascii (by decide))
  obtain ⟨h1, h2⟩ := parseHead_ok (start := parseRequestLine) hline (parseRequestLine_ok m ht) hh hd
  obtain ⟨n, hn⟩ : ∃ n, contentLengthOf headers = .ok n := by
    rcases contentLengthOf_cases (h := headers) hh.1 with ⟨h, _⟩ | ⟨_, _, _, _, h⟩ | ⟨v, hv, hbad, _⟩
    · exact ⟨_, h⟩
    · exact ⟨_, h⟩
    · exact absurd (hl v hv) hbad
  rw [show (⟨headers.entries⟩ : HttpHeaders) = headers from rfl, hn] at h1
  dsimp only at h1
  rcases hp : parseHead c parseRequestLine s with ⟨r1, s1⟩
  rw [hp] at h1 h2
  dsimp only at h1 h2
  subst h1
  refine ⟨_, _, by unfold HttpRequest.deserialize; rw [hp], rfl, rfl, rfl, rfl, (framing_new hh.1 hn s1).1, ?_, h2⟩
  dsimp only
  unfold HttpBody.new
  by_cases he : headers.get b!"Transfer-Encoding" = some b!"chunked"
  · rw [if_pos he]; rfl
  · rw [if_neg he]; cases n <;> rfl

/-- Serialize, transmit, parse: the two halves composed. -/
theorem C18_end_to_end [CaseMap] {σ τ ρ : Type} [LawfulWriter σ] [LawfulReader τ] (c c' : Cfg) (s : σ) (u : τ)
    (r : HttpRequest c ρ) (o : OutgoingRequest c σ) (rest : List Ev)
    (hv : r.version = ⟨1, 1⟩) (ht : SendableTarget r.uri) (hh : SendableHeaders r.headers.entries)
    (hl : LengthOk r.headers.entries) (h : r.serialize (BufWriter.new c s) = .ok o) (hs : sent s = [])
    (hd : Delivers c' (trace u) (outgoingSent o) rest) :
    ∃ r' u', HttpRequest.deserialize c' u = (.ok r', u') ∧ r'.method = r.method ∧ r'.uri = r.uri ∧
      r'.version = r.version ∧ r'.headers = r.headers ∧ trace u' = rest := by
  rw [(C18_serialized r s hv o h).1, hs, List.nil_append] at hd
  obtain ⟨r', u', h1, h2, h3, h4, h5, _, _, h8⟩ := C18_roundtrip c' u r.method r.uri r.headers rest ht hh hl hd
  exact ⟨r', u', h1, h2, h3, by rw [h4, hv], h5, h8⟩

/-- The same for a request made by `HttpRequest::new` and given headers: the peer sees version 1.1, and `/` for an empty
target. -/
theorem C18_new [CaseMap] {σ τ : Type} [LawfulWriter σ] [LawfulReader τ] (c c' : Cfg) (s : σ) (u : τ) (m : HttpMethod)
    (target : Bytes) (headers : HttpHeaders) (o : OutgoingRequest c σ) (rest : List Ev)
    (ht : target = [] ∨ SendableTarget target) (hh : SendableHeaders headers.entries) (hl : LengthOk headers.entries)
    (h : HttpRequest.serialize { HttpRequest.new c m target with headers } (BufWriter.new c s) = .ok o) (hs : sent s = [])
    (hd : Delivers c' (trace u) (outgoingSent o) rest) :
    ∃ r' u', HttpRequest.deserialize c' u = (.ok r', u') ∧ r'.method = m ∧ (target ≠ [] → r'.uri = target) ∧
      (target = [] → r'.uri = utf8 "/") ∧ r'.version = ⟨1, 1⟩ ∧ r'.headers = headers ∧ trace u' = rest := by
  have hslash : utf8 "/" = b!"/" := by decide +kernel
  obtain ⟨r', u', h1, h2, h3, h4, h5, h6⟩ := C18_end_to_end c c' s u _ o rest rfl (by
    show SendableTarget (if target.isEmpty then b!"/" else target)
    rcases ht with rfl | ht
    · exact ⟨by decide, isText_ascii (by decide), by decide, by decide, by unfold HasCrLf; decide⟩
    · rw [if_neg (by simpa using ht.1)]; exact ht) hh hl h hs hd
  refine ⟨r', u', h1, h2, fun hne => ?_, fun he => ?_, h4, h5, h6⟩
  · rw [h3]; exact if_neg (by simpa using hne)
  · rw [h3, hslash]; exact if_pos (by simpa using he)

/-- Witness: `PUT /ä` with two headers, cut into odd pieces, followed by a body. -/
example : let _ := asciiCase
    let h : HttpHeaders := ⟨[(b!"content-length", b!"+007"), (b!"host", b!"é: x")]⟩
    SendableTarget b!"/ä" ∧ SendableHeaders h.entries ∧ LengthOk h.entries ∧
    Delivers ⟨false⟩ (trace (Wire.mk [.data b!"PUT /", .data b!"ä HTTP/1.1\r", .data
      b!"\ncontent-length: +007\r\nhost: é: x\r", .data b!"\n\r", .data b!"\nbody"]))
      (requestHead .Put b!"/ä" h.entries) (b!"body".map .byte) := by
  refine ⟨⟨by decide, (validUtf8_iff _).1 (by decide), by decide, by decide, by unfold HasCrLf; decide⟩,
    ⟨by unfold SortedNames; decide, by decide, ?_⟩, ?_, ?_⟩
  · intro kv hkv
    simp only [List.mem_cons, List.not_mem_nil, or_false] at hkv
    rcases hkv with rfl | rfl
    · exact ⟨isText_ascii (by decide), by decide, by unfold HasCrLf; decide, by rw [← startsBlank_iff]; decide,
        isText_ascii (by decide), by unfold HasCrLf; decide⟩
    · exact ⟨isText_ascii (by decide), by decide, by unfold HasCrLf; decide, by rw [← startsBlank_iff]; decide,
        (validUtf8_iff _).1 (by decide), by unfold HasCrLf; decide⟩
  · intro v hv
    simp only [List.mem_cons, List.not_mem_nil, or_false, Prod.mk.injEq] at hv
    rcases hv with ⟨_, rfl⟩ | ⟨h, _⟩
    · exact ⟨7, lengthText_iff.1 (by decide +kernel)⟩
    · simp at h
  · have : requestHead .Put b!"/ä" [(b!"content-length", b!"+007"), (b!"host", b!"é: x")] =
      b!"PUT /ä HTTP/1.1\r\ncontent-length: +007\r\nhost: é: x\r\n\r\n" := by decide +kernel
    dsimp only
    rw [this]
    exact delivers_map _ b!"PUT /ä HTTP/1.1\r\ncontent-length: +007\r\nhost: é: x\r\n\r\n" (b!"body".map .byte)

/-- Witness for `C10_request`, `C20_request` and `C32_parsed`: a message that parses. -/
example : let _ := asciiCase
    ∃ r s', HttpRequest.deserialize ⟨false⟩ (Wire.mk [.data b!"GET /x HTTP/1.1\r", .data b!"\n\r\nrest"]) = (.ok r, s') := by
  have : requestHead .Get b!"/x" [] = b!"GET /x HTTP/1.1\r\n\r\n" := by decide +kernel
  obtain ⟨r, s', h, _⟩ := @C18_roundtrip asciiCase _ _ ⟨false⟩
    (Wire.mk [.data b!"GET /x HTTP/1.1\r", .data b!"\n\r\nrest"]) .Get b!"/x" ⟨[]⟩ (b!"rest".map .byte)
    ⟨by decide, isText_ascii (by decide), by decide, by decide, by unfold HasCrLf; decide⟩
    ⟨by simp [SortedNames], by simp, by simp⟩ (by intro v hv; simp at hv)
    (by rw [this]; exact delivers_map _ b!"GET /x HTTP/1.1\r\n\r\n" (b!"rest".map .byte))
  exact ⟨r, s', h⟩

/-- Witness for `C18_serialized` and `C18_new`: a sink that takes three bytes, then one, then everything. -/
example : ∃ o, HttpRequest.serialize (HttpRequest.new ⟨false⟩ .Get b!"/x")
    (BufWriter.new ⟨false⟩ (Sink.mk [] 0 [.accept 3, .accept 1])) = .ok o ∧
    (HttpRequest.new ⟨false⟩ .Get b!"/x").version = ⟨1, 1⟩ := by
  refine ⟨.NoBody (Sink.mk b!"GET /x HTTP/1.1\r\n\r\n" 0 []), ?_, rfl⟩
  have : writePieces ⟨false⟩ (BufWriter.new ⟨false⟩ (Sink.mk [] 0 [.accept 3, .accept 1]))
      (HttpRequest.headPieces (HttpRequest.new ⟨false⟩ .Get b!"/x")) =
      (.ok (), BufWriter.mk (Sink.mk b!"GET /x HTTP/1.1\r\n\r\n" 0 []) []) := by decide +kernel
  unfold HttpRequest.serialize
  rw [this]; rfl

/-! ### C19 -/

theorem response_headPieces {c : Cfg} {ρ : Type} (r : HttpResponse c ρ) (hv : r.version = ⟨1, 1⟩) :
    r.headPieces.flatten = responseHead r.status.display r.headers.entries := by
  unfold responseHead
  rw [r.headPieces_flatten, utf8_http11, hv]
  have h1 : HttpVersion.display ⟨1, 1⟩ = b!"HTTP/1.1" := by decide +kernel
  rw [h1]

theorem versionedHead_one (text : Bytes) (headers : List (Bytes × Bytes)) :
    versionedHead 1 1 text headers = responseHead text headers := by
  unfold versionedHead responseHead
  rw [show utf8 "HTTP/" ++ [UInt8.ofNat (48 + 1), 46, UInt8.ofNat (48 + 1), 32] = utf8 "HTTP/1.1" ++ [32] by decide +kernel]

theorem display_digits : ∀ a < 10, ∀ b < 10, HttpVersion.display ⟨a, b⟩ =
    utf8 "HTTP/" ++ [UInt8.ofNat (48 + a), 46, UInt8.ofNat (48 + b)] := by
  decide +kernel

/-- The head of a response of any version of two digits. -/
theorem response_versioned {c : Cfg} {ρ : Type} (r : HttpResponse c ρ) (h1 : r.version.major < 10)
    (h2 : r.version.minor < 10) :
    r.headPieces.flatten = versionedHead r.version.major r.version.minor r.status.display r.headers.entries := by
  unfold versionedHead
  rw [r.headPieces_flatten, show r.version.display = _ from display_digits _ h1 _ h2]
  simp

/-- What serializing a response head puts on the writer. -/
theorem C19_serialized {c : Cfg} {ρ σ : Type} [LawfulWriter σ] (r : HttpResponse c ρ) (w w' : σ)
    (hv : r.version = ⟨1, 1⟩) (h : r.serialize w = (.ok (), w')) :
    sent w' = sent w ++ responseHead r.status.display r.headers.entries := by
  unfold HttpResponse.serialize at h
  obtain ⟨_, p, _, h2, h3⟩ := writePieces_sent h
  rw [h2, h3 rfl, response_headPieces r hv]

/-- As `C19_roundtrip`, with the status in terms of the code table. -/
theorem response_delivered [CaseMap] {σ : Type} [LawfulReader σ] (c : Cfg) (s : σ) (status : HttpStatus)
    (headers : HttpHeaders) (rest : List Ev) (hh : SendableHeaders headers.entries) (hl : LengthOk headers.entries)
    (hd : Delivers c (trace s) (responseHead status.display headers.entries) rest) :
    ∃ r s', HttpResponse.deserialize c s = (.ok r, s') ∧ r.status = HttpStatus.fromCode status.toCode ∧
      r.version = ⟨1, 1⟩ ∧ r.headers = headers ∧
      FramedBy headers.entries (framing r.body) ∧ r.body.under = some (BufReader.new c s') ∧ trace s' = rest := by
  unfold responseHead at hd
  rw [utf8_http11] at hd
  have hline : RawLine (b!"HTTP/1.1" ++ [32] ++ status.display) := by
    refine ⟨by simp, ?_, ?_⟩
    · rw [show b!"HTTP/1.1" ++ [32] ++ status.display = b!"HTTP/1.1" ++ 32 :: status.display by simp]
      exact not_hasCrLf_join (by decide) (by decide) (by unfold HasCrLf; decide) (status_display_noCrLf status)
    · exact isText_append (isText_append (isText_ascii (by decide)) (isText_ascii (by decide)))
        (isText_ascii (status_display_valid status))
  obtain ⟨h1, h2⟩ := parseHead_ok (start := parseStatusLine) hline (parseStatusLine_ok status) hh hd
  obtain ⟨n, hn⟩ : ∃ n, contentLengthOf headers = .ok n := by
    rcases contentLengthOf_cases (h := headers) hh.1 with ⟨h, _⟩ | ⟨_, _, _, _, h⟩ | ⟨v, hv, hbad, _⟩
    · exact ⟨_, h⟩
    · exact ⟨_, h⟩
    · exact absurd (hl v hv) hbad
  rw [show (⟨headers.entries⟩ : HttpHeaders) = headers from rfl, hn] at h1
  dsimp only at h1
  rcases hp : parseHead c parseStatusLine s with ⟨r1, s1⟩
  rw [hp] at h1 h2
  dsimp only at h1 h2
  subst h1
  refine ⟨_, _, by unfold HttpResponse.deserialize; rw [hp], rfl, rfl, rfl,
    (framing_new hh.1 hn _).1, ?_, h2⟩
  dsimp only
  unfold HttpBody.new
  by_cases he : headers.get b!"Transfer-Encoding" = some b!"chunked"
  · rw [if_pos he]; rfl
  · rw [if_neg he]; cases n <;> rfl

/-- The head of a response, delivered by any transport, is parsed to a response with the same code (and, for the
statuses that have a name, the same status), version and headers; the body starts with what follows. -/
theorem C19_roundtrip [CaseMap] {σ : Type} [LawfulReader σ] (c : Cfg) (s : σ) (status : HttpStatus)
    (headers : HttpHeaders) (rest : List Ev) (hh : SendableHeaders headers.entries) (hl : LengthOk headers.entries)
    (hd : Delivers c (trace s) (responseHead status.display headers.entries) rest) :
    ∃ r s', HttpResponse.deserialize c s = (.ok r, s') ∧ r.status.toCode = status.toCode ∧
      ((∀ n, status ≠ .Unknown n) → r.status = status) ∧ r.version = ⟨1, 1⟩ ∧ r.headers = headers ∧
      FramedBy headers.entries (framing r.body) ∧ r.body.under = some (BufReader.new c s') ∧ trace s' = rest := by
  obtain ⟨r, s', h1, h2, h3⟩ := response_delivered c s status headers rest hh hl hd
  refine ⟨r, s', h1, by rw [h2, C01_code_lossless], ?_, h3⟩
  intro hk
  rw [h2]
  cases status with
  | Unknown n => exact absurd rfl (hk n)
  | _ => rfl

/-- Serialize, transmit, parse: the two halves composed. -/
theorem C19_end_to_end [CaseMap] {σ τ ρ : Type} [LawfulWriter σ] [LawfulReader τ] (c c' : Cfg) (w w' : σ) (u : τ)
    (r : HttpResponse c ρ) (rest : List Ev) (hv : r.version = ⟨1, 1⟩) (hh : SendableHeaders r.headers.entries)
    (hl : LengthOk r.headers.entries) (h : r.serialize w = (.ok (), w')) (hs : sent w = [])
    (hd : Delivers c' (trace u) (sent w') rest) :
    ∃ r' u', HttpResponse.deserialize c' u = (.ok r', u') ∧ r'.status.toCode = r.status.toCode ∧
      r'.version = r.version ∧ r'.headers = r.headers ∧ trace u' = rest := by
  rw [C19_serialized r w w' hv h, hs, List.nil_append] at hd
  obtain ⟨r', u', h1, h2, _, h4, h5, _, _, h8⟩ := C19_roundtrip c' u r.status r.headers rest hh hl hd
  exact ⟨r', u', h1, h2, by rw [h4, hv], h5, h8⟩

/-- The same for a response made by `HttpResponse::new` and given headers. -/
theorem C19_new [CaseMap] {σ τ ρ : Type} [LawfulWriter σ] [LawfulReader τ] (c c' : Cfg) (w w' : σ) (u : τ)
    (status : HttpStatus) (body : ρ) (headers : HttpHeaders) (rest : List Ev) (hh : SendableHeaders headers.entries)
    (hl : LengthOk headers.entries)
    (h : HttpResponse.serialize { HttpResponse.new c status body with headers } w = (.ok (), w')) (hs : sent w = [])
    (hd : Delivers c' (trace u) (sent w') rest) :
    ∃ r' u', HttpResponse.deserialize c' u = (.ok r', u') ∧ r'.status.toCode = status.toCode ∧
      r'.version = ⟨1, 1⟩ ∧ r'.headers = headers ∧ trace u' = rest :=
  C19_end_to_end c c' w w' u _ rest rfl hh hl h hs hd

example : let _ := asciiCase
    let h : HttpHeaders := ⟨[(b!"transfer-encoding", b!"chunked")]⟩
    SendableHeaders h.entries ∧ LengthOk h.entries ∧
    Delivers ⟨true⟩ (trace (Wire.mk [.data b!"HTTP/1.1 6", .data b!"99", .fault (.io .interrupted), .data
      b!"\r\ntransfer-encoding: chunked\r\n\r", .data b!"\n0\r\n\r\n"]))
      (responseHead (HttpStatus.display (.Unknown 699)) h.entries) (b!"0\r\n\r\n".map .byte) := by
  refine ⟨⟨by unfold SortedNames; decide, by decide, ?_⟩, ?_, ?_⟩
  · intro kv hkv
    simp only [List.mem_cons, List.not_mem_nil, or_false] at hkv
    rcases hkv with rfl
    exact ⟨isText_ascii (by decide), by decide, by unfold HasCrLf; decide, by rw [← startsBlank_iff]; decide,
        isText_ascii (by decide), by unfold HasCrLf; decide⟩
  · intro v hv
    simp at hv
  · have : responseHead (HttpStatus.display (.Unknown 699)) [(b!"transfer-encoding", b!"chunked")] =
      b!"HTTP/1.1 699" ++ b!"\r\ntransfer-encoding: chunked\r\n\r\n" := by decide +kernel
    dsimp only
    rw [this]
    refine Spec.Delivers.append (m := .fault (.io .interrupted) :: _) (delivers_map _ b!"HTTP/1.1 699" _) ?_
    exact .retry ⟨rfl, rfl⟩ (delivers_map _ b!"\r\ntransfer-encoding: chunked\r\n\r\n" (b!"0\r\n\r\n".map .byte))

/-- Witness for `C10_response` and `C20_response`. -/
example : let _ := asciiCase
    ∃ r s', HttpResponse.deserialize ⟨true⟩ (Wire.mk [.data b!"HTTP/1.1 404 Not Found\r", .data b!"\n\r\nrest"]) =
      (.ok r, s') := by
  have : responseHead (HttpStatus.display .NotFound) [] = b!"HTTP/1.1 404 Not Found\r\n\r\n" := by decide +kernel
  obtain ⟨r, s', h, _⟩ := @C19_roundtrip asciiCase _ _ ⟨true⟩
    (Wire.mk [.data b!"HTTP/1.1 404 Not Found\r", .data b!"\n\r\nrest"]) .NotFound ⟨[]⟩ (b!"rest".map .byte)
    ⟨by simp [SortedNames], by simp, by simp⟩ (by intro v hv; simp at hv)
    (by rw [this]; exact delivers_map _ b!"HTTP/1.1 404 Not Found\r\n\r\n" (b!"rest".map .byte))
  exact ⟨r, s', h⟩

/-! ### C20 -/

section
variable [CaseMap] {σ : Type} [LawfulReader σ]

/-- On a parsed request the body is delimited as the header set says, and every content length is a number. -/
theorem C20_request (c : Cfg) (s s' : σ) (r : HttpRequest c σ) (h : HttpRequest.deserialize c s = (.ok r, s')) :
    FramedBy r.headers.entries (framing r.body) ∧ LengthOk r.headers.entries := by
  unfold HttpRequest.deserialize at h
  rcases h1 : parseHead c parseRequestLine s with ⟨r1, s1⟩
  rw [h1] at h
  rcases r1 with ⟨⟨m, uri, v⟩, hs, enc, n⟩ | e | _
  · simp only [Prod.mk.injEq, Res.ok.injEq] at h
    obtain ⟨rfl, rfl⟩ := h
    obtain ⟨g1, rfl, g3⟩ := parseHead_framing h1
    exact framing_new g1 g3 _
  · simp at h
  · simp at h

/-- The same for responses. -/
theorem C20_response (c : Cfg) (s s' : σ) (r : HttpResponse c (BufReader c σ))
    (h : HttpResponse.deserialize c s = (.ok r, s')) :
    FramedBy r.headers.entries (framing r.body) ∧ LengthOk r.headers.entries := by
  unfold HttpResponse.deserialize at h
  rcases h1 : parseHead c parseStatusLine s with ⟨r1, s1⟩
  rw [h1] at h
  rcases r1 with ⟨⟨m, v⟩, hs, enc, n⟩ | e | _
  · simp only [Prod.mk.injEq, Res.ok.injEq] at h
    obtain ⟨rfl, rfl⟩ := h
    obtain ⟨g1, rfl, g3⟩ := parseHead_framing h1
    exact framing_new g1 g3 _
  · simp at h
  · simp at h

/-- `FramedBy` decides the framing. -/
theorem C20_framing_unique (entries : List (Bytes × Bytes)) (hs : SortedNames entries) (f g : Framing)
    (hf : FramedBy entries f) (hg : FramedBy entries g) : f = g := by
  have huniq : ∀ v w, (b!"content-length", v) ∈ entries → (b!"content-length", w) ∈ entries → v = w := by
    intro v w hv hw
    have h1 := (mapGet_iff hs _ _).2 hv
    have h2 := (mapGet_iff hs _ _).2 hw
    rw [h1] at h2; simpa using h2
  cases hf with
  | chunked h => cases hg with
    | chunked => rfl
    | limited h' => exact absurd h h'
    | tilClose h' => exact absurd h h'
  | @limited v n h h1 h2 => cases hg with
    | chunked h' => exact absurd h' h
    | @limited w k h' h3 h4 =>
      obtain rfl := huniq v w h1 h3
      have a := lengthText_iff.2 h2
      have b := lengthText_iff.2 h4
      rw [a] at b; simp only [Option.some.injEq] at b; rw [b]
    | tilClose _ h' => exact absurd h1 (h' _)
  | tilClose h h1 => cases hg with
    | chunked h' => exact absurd h' h
    | limited _ h3 => exact absurd h3 (h1 _)
    | tilClose => rfl

/-- A content length that is not a number below `2^64` makes the parse fail, also when the body is chunked. `hist`
is the list of headers in the order in which they arrive. -/
theorem C20_bad_length (c : Cfg) (s : σ) (m : HttpMethod) (target : Bytes) (raw : List Bytes)
    (hist : List (Bytes × Bytes)) (v : Bytes) (t' : List Ev) (ht : SendableTarget target)
    (hf : Folded raw (hist.map fun kv => kv.1 ++ [58, 32] ++ kv.2)) (hraw : ∀ l ∈ raw, RawLine l)
    (hc : ∀ kv ∈ hist, (58 : UInt8) ∉ kv.1)
    (hv : LastWith (fun k => CaseMap.lower k = b!"content-length") hist v) (hbad : ¬ ∃ n, LengthText v n)
    (hd : Delivers c (trace s)
      (utf8 (methodName m) ++ [32] ++ target ++ [32] ++ utf8 "HTTP/1.1" ++ [13, 10] ++ blockBytes raw) t') :
    (HttpRequest.deserialize c s).1 = .err .parseInt := by
  rw [utf8_http11] at hd
  have hline : RawLine (utf8 (methodName m) ++ [32] ++ target ++ [32] ++ b!"HTTP/1.1") := by
    obtain ⟨_, t2, _, _, t5⟩ := ht
    have hmt : IsText (utf8 (methodName m)) := by
      rw [methodName_bytes]; exact isText_ascii (by cases m <;> decide)
    have hmc : ¬ HasCrLf (utf8 (methodName m)) := by
      rw [methodName_bytes]; unfold HasCrLf; cases m <;> decide
    refine ⟨by simp, ?_, ?_⟩
    · rw [show utf8 (methodName m) ++ [32] ++ target ++ [32] ++ b!"HTTP/1.1" =
        utf8 (methodName m) ++ 32 :: (target ++ 32 :: b!"HTTP/1.1") by simp]
      exact not_hasCrLf_join (by decide) (by decide) hmc
        (not_hasCrLf_join (by decide) (by decide) t5 (by unfold HasCrLf; decide))
    · exact isText_append (isText_append (isText_append (isText_append hmt (isText_ascii (by decide))) t2)
        (isText_ascii (by decide))) (isText_ascii (by decide))
  obtain ⟨mid, hm1, hm2⟩ := hd.split
  obtain ⟨s1, h1, h2⟩ := expectNext_line hline hm1
  obtain ⟨s2, h3, h4⟩ := deserialize_hist hf hraw hc (s := s1) (by rw [h2]; exact hm2)
  have hsorted : SortedNames (insertAll (hist.map fun kv => (CaseMap.lower kv.1, kv.2)) []) :=
    insertAll_sorted (by simp [SortedNames])
  have hget : (b!"content-length", v) ∈ insertAll (hist.map fun kv => (CaseMap.lower kv.1, kv.2)) [] := by
    apply mapGet_mem
    rw [mapGet_insertAll]
    exact lastWith_map_lower.2 hv
  have hcl : contentLengthOf ⟨insertAll (hist.map fun kv => (CaseMap.lower kv.1, kv.2)) []⟩ = .err .parseInt := by
    rcases contentLengthOf_cases (h := ⟨_⟩) hsorted with ⟨_, h⟩ | ⟨w, n, hw, hn, _⟩ | ⟨_, _, _, h⟩
    · exact absurd hget (h v)
    · have g1 := (mapGet_iff hsorted _ _).2 hget
      have g2 := (mapGet_iff hsorted _ _).2 hw
      rw [g1] at g2
      simp only [Option.some.injEq] at g2
      subst g2
      exact absurd ⟨n, hn⟩ hbad
    · exact h
  unfold HttpRequest.deserialize parseHead
  rw [h1]; dsimp only
  rw [parseRequestLine_ok m ht]; dsimp only
  rw [h3]; dsimp only
  rw [hcl]

end

/-- Witness for `C20_bad_length`: a chunked message with a negative content length. -/
example : let _ := asciiCase
    LastWith (fun k => CaseMap.lower k = b!"content-length")
      [(b!"Transfer-Encoding", b!"chunked"), (b!"Content-Length", b!"-1")] b!"-1" ∧ ¬ ∃ n, LengthText b!"-1" n := by
  refine ⟨⟨[(b!"Transfer-Encoding", b!"chunked")], b!"Content-Length", [], rfl, by decide, by simp⟩, ?_⟩
  rintro ⟨n, hn⟩
  have := lengthText_iff.2 hn
  rw [show fromStrRadix 10 u64Max b!"-1" = none by decide +kernel] at this
  simp at this

/-! ### C21 -/

/-- A request built from a method and a string. -/
theorem C21_new (c : Cfg) (m : HttpMethod) (target : Bytes) :
    (HttpRequest.new c m target).method = m ∧
    (target = [] → (HttpRequest.new c m target).uri = b!"/") ∧
    (target ≠ [] → (HttpRequest.new c m target).uri = target) ∧
    (HttpRequest.new c m target).version = ⟨1, 1⟩ ∧ (HttpRequest.new c m target).headers.entries = [] := by
  refine ⟨rfl, ?_, ?_, rfl, rfl⟩
  · rintro rfl; rfl
  · intro h
    unfold HttpRequest.new
    dsimp only
    rw [if_neg (by simpa using h)]

/-! ### C32 -/

section
variable {c : Cfg} {ρ : Type}

/-- `require_length` fails exactly on bodies that run to the end of the stream. -/
theorem C32_require_length (b : HttpBody c ρ) :
    (b.requireLength = .err .lengthRequired ↔ framing b = .tilClose) ∧
    (b.requireLength = .ok () ↔ framing b = .chunked ∨ ∃ n, framing b = .limited n) := by
  cases b <;> simp [HttpBody.requireLength, framing]

/-- On a parsed message: exactly when it had neither `transfer-encoding: chunked` nor a content length. -/
theorem C32_parsed [CaseMap] [LawfulReader ρ] (s s' : ρ) (r : HttpRequest c ρ)
    (h : HttpRequest.deserialize c s = (.ok r, s')) :
    r.body.requireLength = .err .lengthRequired ↔
      (b!"transfer-encoding", b!"chunked") ∉ r.headers.entries ∧ ∀ v, (b!"content-length", v) ∉ r.headers.entries := by
  rw [(C32_require_length r.body).1]
  have hf := (C20_request c s s' r h).1
  constructor
  · intro he
    rw [he] at hf
    cases hf with
    | tilClose h1 h2 => exact ⟨h1, h2⟩
  · rintro ⟨h1, h2⟩
    generalize framing r.body = f at hf
    cases hf with
    | chunked h => exact absurd h h1
    | limited _ h => exact absurd h (h2 _)
    | tilClose => rfl

/-- The same for a response. -/
theorem C32_parsed_response [CaseMap] [LawfulReader ρ] (s s' : ρ) (r : HttpResponse c (BufReader c ρ))
    (h : HttpResponse.deserialize c s = (.ok r, s')) :
    r.body.requireLength = .err .lengthRequired ↔
      (b!"transfer-encoding", b!"chunked") ∉ r.headers.entries ∧ ∀ v, (b!"content-length", v) ∉ r.headers.entries := by
  rw [(C32_require_length r.body).1]
  have hf := (C20_response c s s' r h).1
  constructor
  · intro he
    rw [he] at hf
    cases hf with
    | tilClose h1 h2 => exact ⟨h1, h2⟩
  · rintro ⟨h1, h2⟩
    generalize framing r.body = f at hf
    cases hf with
    | chunked h => exact absurd h h1
    | limited _ h => exact absurd h (h2 _)
    | tilClose => rfl

/-- Witness: a response without either header. -/
example (c : Cfg) : let _ := asciiCase
    (match HttpResponse.deserialize c (SliceReader.mk b!"HTTP/1.1 200 OK\r\nA: b\r\n\r\nhi") with
      | (.ok r, _) => (match r.body.requireLength with | .err .lengthRequired => true | _ => false) | _ => false) = true := by
  rcases c with ⟨_ | _⟩ <;> decide +kernel

end

/-! ### C11 -/

section
variable [CaseMap] {σ : Type} [LawfulReader σ]

/-- The property as stated is false: these bytes panic the request parser (and any reply with such a header line
panics the response parser), on every transport and both I/O layers. The byte after the first `:` starts a
two-byte character, so `&s[position..position + 2]` cuts it. -/
theorem C11_no_panic_false (c : Cfg) (s : σ) (rest : List Ev) :
    (Delivers c (trace s) b!"GET / HTTP/1.1\r\na:é\r\n\r\n" rest → (HttpRequest.deserialize c s).1 = .panic) ∧
    (Delivers c (trace s) b!"HTTP/1.1 200 OK\r\na:é\r\n\r\n" rest → (HttpResponse.deserialize c s).1 = .panic) := by
  have hraw : ∀ l ∈ [b!"a:é"], RawLine l := by
    intro l hl
    simp only [List.mem_cons, List.not_mem_nil, or_false] at hl
    rw [hl]
    exact ⟨by decide, by unfold HasCrLf; decide, (validUtf8_iff _).1 (by decide)⟩
  have hf : Folded [b!"a:é"] [b!"a:é"] := by
    apply folded_self
    intro l hl
    simp only [List.mem_cons, List.not_mem_nil, or_false] at hl
    rw [hl, ← startsBlank_iff]; decide
  have hp : parseLines [b!"a:é"] = .panic := by
    have := (HttpHeader.deserialize_panic_iff (line := b!"a:é") (by decide)).2 ⟨b!"a", 195, [169], rfl, by decide, by decide⟩
    unfold parseLines
    rw [this]
  constructor
  · intro h
    have hl : RawLine b!"GET / HTTP/1.1" :=
      ⟨by decide, by unfold HasCrLf; decide, (validUtf8_iff _).1 (by decide)⟩
    have hst : parseRequestLine b!"GET / HTTP/1.1" = .ok (.Get, b!"/", ⟨1, 1⟩) := by
      have := parseRequestLine_ok .Get (uri := b!"/")
        ⟨by decide, isText_ascii (by decide), by decide, by decide, by unfold HasCrLf; decide⟩
      rw [methodName_bytes] at this
      exact this
    have := (parseHead_block (start := parseRequestLine) hl hraw hf (by exact h)).1
    unfold headOutcome at this
    rw [hst, hp] at this
    unfold HttpRequest.deserialize
    rcases h1 : parseHead c parseRequestLine s with ⟨r1, s1⟩
    rw [h1] at this
    dsimp only at this
    rw [this]
  · intro h
    have hl : RawLine b!"HTTP/1.1 200 OK" :=
      ⟨by decide, by unfold HasCrLf; decide, (validUtf8_iff _).1 (by decide)⟩
    have hst : parseStatusLine b!"HTTP/1.1 200 OK" = .ok (⟨1, 1⟩, .OK) := parseStatusLine_ok .OK
    have := (parseHead_block (start := parseStatusLine) hl hraw hf (by exact h)).1
    unfold headOutcome at this
    rw [hst, hp] at this
    unfold HttpResponse.deserialize
    rcases h1 : parseHead c parseStatusLine s with ⟨r1, s1⟩
    rw [h1] at this
    dsimp only at this
    rw [this]

/-- What remains: a stream whose pending bytes are all ASCII, with any faults anywhere, never panics the parsers.
(Reading the body cannot panic: the outcome type of `read` has no panic.) -/
theorem C11_ascii_partial (c : Cfg) (s : σ) (ha : ∀ b, Ev.byte b ∈ trace s → b.toNat < 128) :
    (HttpRequest.deserialize c s).1 ≠ .panic ∧ (HttpResponse.deserialize c s).1 ≠ .panic := by
  constructor
  · have := parseHead_ascii (c := c) (start := parseRequestLine) ha fun l hl => parseRequestLine_ascii hl
    unfold HttpRequest.deserialize
    rcases h1 : parseHead c parseRequestLine s with ⟨r1, s1⟩
    rw [h1] at this
    cases r1 with
    | ok => simp
    | err => simp
    | panic => exact absurd rfl this
  · have := parseHead_ascii (c := c) (start := parseStatusLine) ha fun l hl => parseStatusLine_ascii hl
    unfold HttpResponse.deserialize
    rcases h1 : parseHead c parseStatusLine s with ⟨r1, s1⟩
    rw [h1] at this
    cases r1 with
    | ok => simp
    | err => simp
    | panic => exact absurd rfl this

/-- Exactly which header lines panic: those whose first `:` is followed by a byte above 0x7F. -/
theorem C11_header_line_iff (line : Bytes) (h : IsText line) :
    HttpHeader.deserialize line = .panic ↔
      ∃ k b rest, line = k ++ 58 :: b :: rest ∧ (58 : UInt8) ∉ k ∧ 128 ≤ b.toNat :=
  HttpHeader.deserialize_panic_iff ((validUtf8_iff line).2 h)

end

example : ∀ b, Ev.byte b ∈ trace (Wire.mk [.data b!"GET /", .fault .other, .data b!"a:"]) → b.toNat < 128 := by
  intro b hb
  simp [Wire.trace_eq, WireEv.events] at hb
  rcases hb with rfl | rfl | rfl | rfl | rfl | rfl | rfl <;> decide

end HttpIo
