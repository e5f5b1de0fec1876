import Verif.Props.EndToEnd
import Verif.Lemmas.ZeroRead

/-! C56: responses to HEAD requests. -/

namespace HttpIo
open Spec

section
variable [CaseMap] {c : Cfg} {ρ σ : Type} [LawfulReader ρ] [ZeroReader ρ] [LawfulWriter σ]

omit [ZeroReader ρ] in
/-- Sending leaves what there is to read. -/
theorem sent_unread {b : HttpRequestBuilder c} {d d1 : Duplex ρ σ} {o : OutgoingRequest c (Duplex ρ σ)}
    (hsend : b.send d = .ok o) (hc : o.complete = .ok d1) : d1.rd = d.rd := by
  have hk := duplex_kept (σ := σ) d.rd
  have a1 := hk.serialize (r := b.request) (s := d) (c := c) rfl
  rw [show b.request.serialize (BufWriter.new c d) = .ok o from hsend] at a1
  have a3 := hk.complete a1
  rw [hc] at a3
  exact a3

/-- What the code does: the response to a HEAD request gets the body that its headers announce, taken from whatever
follows on the connection. (`bs` is that, if the server closes after it.) -/
theorem C56_announced (u : Url) (b : HttpRequestBuilder c) (d d1 : Duplex ρ σ) (o : OutgoingRequest c (Duplex ρ σ))
    (_hb : HttpRequestBuilder.head c (HttpUrl.tryFrom u) = .ok b) (hsend : b.send d = .ok o) (hc : o.complete = .ok d1)
    (status : HttpStatus) (headers : HttpHeaders) (bs : Bytes) (hh : SendableHeaders headers.entries)
    (hl : LengthOk headers.entries) (hn : (b!"transfer-encoding", b!"chunked") ∉ headers.entries)
    (hd : trace d.rd = (responseHead status.display headers.entries ++ bs).map .byte) :
    ∃ r d', o.finish = (.ok r, d') ∧ r.status.toCode = status.toCode ∧ r.headers = headers ∧
      ((∀ v, (b!"content-length", v) ∉ headers.entries) → Yields r.body bs) ∧
      (∀ v n, (b!"content-length", v) ∈ headers.entries → LengthText v n → Yields r.body (bs.take n)) := by
  have hd1 : trace d1 = (responseHead status.display headers.entries ++ bs).map .byte := by
    rw [Duplex.trace_eq, sent_unread hsend hc, hd]
  obtain ⟨r, d', h1, h2, h3⟩ := response_closed (c := c) d1 status headers bs hh hl hn hd1
  exact ⟨r, d', by unfold OutgoingRequest.finish; rw [hc]; exact h1, by rw [h2, C01_code_lossless], h3⟩

/-- Exactly when the property holds of a connection that the server closes after `bs`: if nothing follows the head, or
the headers announce a length of zero (and not the chunked coding). -/
theorem C56_head_iff (u : Url) (b : HttpRequestBuilder c) (d d1 : Duplex ρ σ) (o : OutgoingRequest c (Duplex ρ σ))
    (hb : HttpRequestBuilder.head c (HttpUrl.tryFrom u) = .ok b) (hsend : b.send d = .ok o) (hc : o.complete = .ok d1)
    (status : HttpStatus) (headers : HttpHeaders) (bs : Bytes) (hh : SendableHeaders headers.entries)
    (hl : LengthOk headers.entries) (hn : (b!"transfer-encoding", b!"chunked") ∉ headers.entries)
    (hd : trace d.rd = (responseHead status.display headers.entries ++ bs).map .byte) :
    (∃ r d', o.finish = (.ok r, d') ∧ Yields r.body []) ↔
      bs = [] ∨ ∃ v, (b!"content-length", v) ∈ headers.entries ∧ LengthText v 0 := by
  obtain ⟨r, d', h1, _, _, h2, h3⟩ := C56_announced u b d d1 o hb hsend hc status headers bs hh hl hn hd
  rw [h1]
  have hsame : ∀ {x : Bytes}, Yields r.body x → (Yields r.body [] ↔ x = []) := by
    intro x hx
    refine ⟨fun h => ?_, fun h => h ▸ hx⟩
    have := trace_of_yields hx
    rw [trace_of_yields h] at this
    cases x with
    | nil => rfl
    | cons _ _ => simp at this
  have hr : (∃ r' d'', (Res.ok r, d') = (Res.ok r', d'') ∧ Yields r'.body []) ↔ Yields r.body [] := by
    constructor
    · rintro ⟨_, _, h, hy⟩
      simp only [Prod.mk.injEq, Res.ok.injEq] at h
      exact h.1 ▸ hy
    · intro hy; exact ⟨r, d', rfl, hy⟩
  rw [hr]
  by_cases h : ∀ v, (b!"content-length", v) ∉ headers.entries
  · rw [hsame (h2 h)]
    exact ⟨.inl, fun hx => hx.elim id fun ⟨v, hv, _⟩ => absurd hv (h v)⟩
  · obtain ⟨v, hv⟩ := Classical.not_forall.1 h
    have hv := Classical.not_not.1 hv
    obtain ⟨n, hn⟩ := hl v hv
    rw [hsame (h3 v n hv hn), List.take_eq_nil_iff]
    constructor
    · rintro (h | h)
      · subst h; exact .inr ⟨v, hv, hn⟩
      · exact .inl h
    · rintro (h | ⟨w, hw, h0⟩)
      · exact .inr h
      · left
        have a := (mapGet_iff hh.1 _ _).2 hv
        rw [(mapGet_iff hh.1 _ _).2 hw, Option.some.injEq] at a
        subst a
        have e := lengthText_iff.2 hn
        rw [lengthText_iff.2 h0] at e
        simpa using e.symm

/-- If the headers announce the chunked coding, as they would for GET, and nothing follows, the body is not empty but broken:
its first read fails. -/
theorem C56_chunked (u : Url) (b : HttpRequestBuilder c) (d d1 : Duplex ρ σ) (o : OutgoingRequest c (Duplex ρ σ))
    (_hb : HttpRequestBuilder.head c (HttpUrl.tryFrom u) = .ok b) (hsend : b.send d = .ok o) (hc : o.complete = .ok d1)
    (status : HttpStatus) (headers : HttpHeaders) (hh : SendableHeaders headers.entries)
    (hl : LengthOk headers.entries) (hch : (b!"transfer-encoding", b!"chunked") ∈ headers.entries)
    (hd : trace d.rd = (responseHead status.display headers.entries).map .byte) :
    ∃ r d', o.finish = (.ok r, d') ∧ r.status.toCode = status.toCode ∧ r.headers = headers ∧
      FailsAfter r.body [] (if c.std then .io (.other 0) else .unexpectedEof) := by
  obtain ⟨r, s', f1, f2, _, f3, f4, f5, f6⟩ := response_delivered c d1 status headers [] hh hl
    (by rw [Duplex.trace_eq, sent_unread hsend hc, hd]; have := delivers_map (c := c) (responseHead status.display headers.entries) []; simpa using this)
  refine ⟨r, s', by unfold OutgoingRequest.finish; rw [hc]; exact f1, by rw [f2, C01_code_lossless], f3, ?_⟩
  have h := framedBy_unique hh.1 f4 (.chunked hch)
  obtain ⟨_, enc, len, hnew⟩ := response_under f1
  rw [hnew] at h ⊢
  have hne : enc = some b!"chunked" := by
    unfold HttpBody.new at h
    split at h
    · assumption
    · cases len <;> simp [framing] at h
  subst hne
  rcases C25_exact c len (BufReader.new c s') [] b!"0" [] (by simp) (.inl (.one (.dec 0 (by omega) (by omega)))) (by simp)
    (by simp [chunkedBytes]) (by rw [BufReader.trace_new, f6]; rfl) with ⟨pre, q, h1, _, _, h2⟩ | ⟨pre, ch, q, h1, _⟩
  · rw [List.prefix_nil] at h1
    subst h1
    exact h2
  · simp at h1

/-- The property holds if the server closes the connection after the head, and does not announce the chunked coding. -/
theorem C56_closed_partial (u : Url) (b : HttpRequestBuilder c) (d d1 : Duplex ρ σ) (o : OutgoingRequest c (Duplex ρ σ))
    (hb : HttpRequestBuilder.head c (HttpUrl.tryFrom u) = .ok b) (hsend : b.send d = .ok o) (hc : o.complete = .ok d1)
    (status : HttpStatus) (headers : HttpHeaders) (hh : SendableHeaders headers.entries)
    (hl : LengthOk headers.entries) (hn : (b!"transfer-encoding", b!"chunked") ∉ headers.entries)
    (hd : trace d.rd = (responseHead status.display headers.entries).map .byte) :
    ∃ r d', o.finish = (.ok r, d') ∧ r.status.toCode = status.toCode ∧ r.headers = headers ∧ Yields r.body [] := by
  obtain ⟨r, d', h1, h2, h3, h4, h5⟩ := C56_announced u b d d1 o hb hsend hc status headers [] hh hl hn (by simpa using hd)
  refine ⟨r, d', h1, h2, h3, ?_⟩
  by_cases h : ∀ v, (b!"content-length", v) ∉ headers.entries
  · exact h4 h
  · obtain ⟨v, hv⟩ := Classical.not_forall.1 h
    have hv := Classical.not_not.1 hv
    obtain ⟨n, hn⟩ := hl v hv
    simpa using h5 v n hv hn

/-- The property holds for a response that announces a length of zero, whatever follows on the connection. -/
theorem C56_zero_length_partial (u : Url) (b : HttpRequestBuilder c) (d d1 : Duplex ρ σ) (o : OutgoingRequest c (Duplex ρ σ))
    (_hb : HttpRequestBuilder.head c (HttpUrl.tryFrom u) = .ok b) (hsend : b.send d = .ok o) (hc : o.complete = .ok d1)
    (status : HttpStatus) (headers : HttpHeaders) (rest : List Ev) (hh : SendableHeaders headers.entries)
    (hn : (b!"transfer-encoding", b!"chunked") ∉ headers.entries)
    (v : Bytes) (hv : (b!"content-length", v) ∈ headers.entries) (h0 : LengthText v 0)
    (hd : Delivers c (trace d.rd) (responseHead status.display headers.entries) rest) :
    ∃ r d', o.finish = (.ok r, d') ∧ r.status.toCode = status.toCode ∧ r.headers = headers ∧ Yields r.body [] := by
  have hfr : FramedBy headers.entries (.limited 0) := .limited hn hv h0
  obtain ⟨r, s', f1, f2, _, f3, f4, f5, f6⟩ := response_delivered c d1 status headers rest hh (FramedBy.lengthOk hh.1 hfr)
    (by rw [Duplex.trace_eq, sent_unread hsend hc]; exact hd)
  refine ⟨r, s', by unfold OutgoingRequest.finish; rw [hc]; exact f1, by rw [f2, C01_code_lossless], f3, ?_⟩
  have h := framedBy_unique hh.1 f4 hfr
  obtain ⟨_, enc, len, hnew⟩ := response_under f1
  rw [hnew] at h ⊢
  have hne : enc ≠ some b!"chunked" := by
    rintro rfl
    simp [HttpBody.new, framing] at h
  have hlen : len = some 0 := by
    unfold HttpBody.new at h
    rw [if_neg hne] at h
    cases len with
    | none => simp [framing] at h
    | some k => simp only [framing, Framing.limited.injEq] at h; rw [h]
  rw [hlen]
  exact C29_yields c enc hne 0 _ [] rest (by rw [BufReader.trace_new, f6]; rfl) (.inr (Nat.le_refl _))

end

/-- A response to a HEAD request (RFC 2616, 9.4) has the headers of the response to GET and no body. The code gives
it the body that the headers announce: the witness is a response with a content length of 5, followed by the beginning of
the next response on the connection. -/
theorem C56_head_false [CaseMap] (c : Cfg) :
    ¬ ∀ (u : Url) (b : HttpRequestBuilder c) (d : Duplex Wire Sink) (o : OutgoingRequest c (Duplex Wire Sink))
      (r : HttpResponse c (BufReader c (Duplex Wire Sink))) (d' : Duplex Wire Sink),
      HttpRequestBuilder.head c (HttpUrl.tryFrom u) = .ok b → b.send d = .ok o → o.finish = (.ok r, d') → Yields r.body [] := by
  intro hall
  have hp : PlainHttp ⟨b!"http", some b!"h", none, b!"/", none, none, [], none⟩ := by
    unfold PlainHttp; rw [utf8_http]; exact sameText_refl _
  have ha : AsciiText b!"http" := by rw [← isAscii_iff]; decide
  obtain ⟨b, o, o', d1, h1, h2, h3, h4⟩ := C55_sending (sink_reliable c)
    (⟨⟨[.data b!"HTTP/1.1 200 OK\r\ncontent-length: 5\r\n\r\n", .data b!"HTTP/1.1 200 OK\r\n\r\n"]⟩, ⟨[], 0, []⟩⟩ : Duplex Wire Sink)
    (by simp) ⟨b!"http", some b!"h", none, b!"/", none, none, [], none⟩ b!"h" .Head ha (.inl hp) rfl [] [] (.inr rfl)
  have ho : o' = o := by
    cases o <;> simp [perform] at h3 <;> exact h3.symm
  subst ho
  have hone : ∀ {k w : Bytes}, (k, w) ∈ (⟨[(b!"content-length", b!"5")]⟩ : HttpHeaders).entries → k = b!"content-length" ∧ w = b!"5" := by
    intro k w h
    simpa using h
  have hlow : CaseMap.lower b!"content-length" = b!"content-length" := by
    rw [CaseMap.lower_ascii _ (by decide)]; decide
  obtain ⟨r, d', g1, _, _, _, g2⟩ := C56_announced _ b _ d1 o' h1 h2 h4 .OK ⟨[(b!"content-length", b!"5")]⟩
    b!"HTTP/1.1 200 OK\r\n\r\n"
    ⟨by simp [SortedNames], by simp [hlow], fun kv hkv => by
      obtain ⟨e1, e2⟩ := hone (k := kv.1) (w := kv.2) hkv
      have : kv = (b!"content-length", b!"5") := Prod.ext e1 e2
      rw [this]
      exact ⟨isText_ascii (by decide), by decide, by unfold HasCrLf; decide, by rw [← startsBlank_iff]; decide,
        isText_ascii (by decide), by unfold HasCrLf; decide⟩⟩
    (fun v hv => by rw [(hone hv).2]; exact ⟨5, lengthText_iff.1 (by decide)⟩)
    (fun h => absurd (hone h).1 (by decide))
    (by decide +kernel)
  have y1 := g2 b!"5" 5 (by simp) (lengthText_iff.1 (by decide))
  have y2 := hall _ b _ o' r d' h1 h2 g1
  have := trace_of_yields y1
  rw [trace_of_yields y2] at this
  exact absurd this (by decide)

/-- Witness for the partial theorems: a HEAD request that is sent, and a response with the length of the body that GET
would give, then the connection is closed. -/
example : let _ := asciiCase
    let u : Url := ⟨b!"http", some b!"h", none, b!"/", none, none, [], none⟩
    let d : Duplex Wire Sink := ⟨⟨[.data b!"HTTP/1.1 200 OK\r\ncontent-length: 5\r\n\r\n"]⟩, ⟨[], 0, [.accept 1]⟩⟩
    trace d.rd = (responseHead (HttpStatus.display .OK) [(b!"content-length", b!"5")]).map .byte ∧
    (match HttpRequestBuilder.head ⟨true⟩ (HttpUrl.tryFrom u) with
      | .ok b =>
        match b.send d with
        | .ok o =>
          match o.complete, o.finish with
          | .ok d1, (.ok r, _) => decide (wire d1.wr = b!"HEAD / HTTP/1.1\r\naccept: */*\r\nhost: h\r\nuser-agent: http_io\r\n\r\n" ∧
              (calls r.body [3, 3]).1 = [.ok [], .ok []])
          | _, _ => false
        | _ => false
      | _ => false) = true := by
  intro inst u d
  exact ⟨by decide +kernel, by decide +kernel⟩

/-- Witness for `C56_head_iff` and `C56_chunked`: what the caller sees on three connections. -/
example : let _ := asciiCase
    let u : Url := ⟨b!"http", some b!"h", none, b!"/", none, none, [], none⟩
    let seen := fun (c : Cfg) (bs : Bytes) =>
      match HttpRequestBuilder.head c (HttpUrl.tryFrom u) with
      | .ok b =>
        match b.send (⟨⟨[.data bs]⟩, ⟨[], 0, []⟩⟩ : Duplex Wire Sink) with
        | .ok o =>
          match o.finish with
          | (.ok r, _) => some (calls r.body [3, 3]).1
          | _ => none
        | _ => none
      | _ => none
    seen ⟨true⟩ b!"HTTP/1.1 200 OK\r\ntransfer-encoding: chunked\r\n\r\n" = some [.error (.io (.other 0)), .ok []] ∧
    seen ⟨false⟩ b!"HTTP/1.1 200 OK\r\ntransfer-encoding: chunked\r\n\r\n" = some [.error .unexpectedEof, .ok []] ∧
    seen ⟨false⟩ b!"HTTP/1.1 200 OK\r\ncontent-length: 0\r\n\r\nHTTP" = some [.ok [], .ok []] ∧
    seen ⟨true⟩ b!"HTTP/1.1 200 OK\r\n\r\nHTTP" = some [.ok b!"HTT", .ok b!"P"] := by
  intro inst u seen
  exact ⟨by decide +kernel, by decide +kernel, by decide +kernel, by decide +kernel⟩

end HttpIo
