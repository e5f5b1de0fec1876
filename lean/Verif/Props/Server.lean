import Verif.Lemmas.Server
import Verif.Lemmas.Client

/-! Properties of the server: C50–C54. -/

namespace HttpIo
open Spec

/-! ### A handler as witness -/

/-- Counts the calls of `put`; answers `GET` from a stream, fails for `GET /missing`, overrides `put` only otherwise. -/
def sampleHandler (c : Cfg) : Handler c Nat (Duplex Wire Sink) Wire Bytes :=
  { Handler.defaults c Nat (Duplex Wire Sink) Wire Bytes fun e => ServerResponse.fromString c .NotFound e with
    get := fun uri n =>
      if uri = b!"/missing" then (.err b!"no such file", n)
      else (.ok (HttpResponse.new c .OK (.B ⟨[.data b!"he", .fault (.io .interrupted), .data b!"llo"]⟩)), n)
    put := fun _ body n => (.ok (ServerResponse.fromString c .Created b!""), (calls body [3, 100]).2, n + 1) }

theorem sampleHandler_onlyReads (c : Cfg) : OnlyReads (sampleHandler c) :=
  ⟨fun _ _ _ => ⟨[3, 100], rfl⟩, fun _ _ _ => ⟨[], rfl⟩⟩

theorem duplex_readsApart {ρ σ : Type} [LawfulReader ρ] [LawfulWriter σ] : ReadsApart (Duplex ρ σ) := fun _ _ => rfl

/-! ### C50 -/

section
variable [CaseMap] {c : Cfg} {η σ ρ ε : Type} [LawfulReader σ] [LawfulReader ρ] [ZeroReader ρ] [LawfulWriter σ]

omit [LawfulReader ρ] [ZeroReader ρ] [LawfulWriter σ] in
/-- The log does not influence anything: the response and the connection are the same as without it. -/
theorem inner_spied (h : Handler c η σ ρ ε) (errText : Err → Bytes) (s : σ) (self : η) (log : List (HttpMethod × Bytes)) :
    ∃ log', (spied h).serveOneInner errText s (self, log) =
      ((h.serveOneInner errText s self).1, (h.serveOneInner errText s self).2.1, (h.serveOneInner errText s self).2.2, log') := by
  rcases inner_cases h errText s self with ⟨e, s1, hp⟩ | ⟨s1, hp⟩ | ⟨r, s1, hp, hr⟩ | ⟨r, s1, hp, hr⟩
  · rw [serveOneInner_err h errText self hp, serveOneInner_err (spied h) errText _ hp]; exact ⟨log, rfl⟩
  · rw [serveOneInner_panic h errText self hp, serveOneInner_panic (spied h) errText _ hp]; exact ⟨log, rfl⟩
  · rw [serveOneInner_handled h errText self hp hr, serveOneInner_handled (spied h) errText _ hp hr, handled_spied]
    exact ⟨log ++ [(r.method, r.uri)], rfl⟩
  · rw [serveOneInner_refused h errText self hp hr, serveOneInner_refused (spied h) errText _ hp hr]; exact ⟨log, rfl⟩

/-- Serving with a log is serving, and the log after serving is the log after `serve_one_inner`. -/
theorem serveOne_spied (h : Handler c η σ ρ ε) (errText : Err → Bytes) (s : σ) (self : η) (log : List (HttpMethod × Bytes)) :
    (spied h).serveOne errText (.ok s) (self, log) =
      ((h.serveOne errText (.ok s) self).1, (h.serveOne errText (.ok s) self).2.1, (h.serveOne errText (.ok s) self).2.2,
        ((spied h).serveOneInner errText s (self, log)).2.2.2) := by
  obtain ⟨log', hi⟩ := inner_spied h errText s self log
  unfold Handler.serveOne
  dsimp only
  rw [hi]
  rcases h.serveOneInner errText s self with ⟨r | r | _, s1, self1⟩
  · dsimp only
    rcases respond c r s1 with ⟨e | _, b, s2⟩ <;> rfl
  · dsimp only
    rcases respond c r s1 with ⟨e | _, b, s2⟩ <;> rfl
  · rfl

/-- Which handler method is called, and with what: if the request does not parse, or is a PUT or POST whose body is
not delimited, none; else exactly one, the one for the method of the request, with its target. -/
theorem C50_calls (h : Handler c η σ ρ ε) (errText : Err → Bytes) (s : σ) (self : η) (log : List (HttpMethod × Bytes)) :
    ((spied h).serveOne errText (.ok s) (self, log)).2.2.2 = log ++
      match (HttpRequest.deserialize c (BufReader.new c s)).1 with
      | .ok r => if (r.method = .Put ∨ r.method = .Post) ∧ framing r.body = .tilClose then [] else [(r.method, r.uri)]
      | .err _ => []
      | .panic => [] := by
  rw [serveOne_spied]
  dsimp only
  rcases inner_cases h errText s self with ⟨e, s1, hp⟩ | ⟨s1, hp⟩ | ⟨r, s1, hp, hr⟩ | ⟨r, s1, hp, hr⟩ <;> rw [hp] <;>
    dsimp only
  · rw [serveOneInner_err _ errText _ hp]; simp
  · rw [serveOneInner_panic _ errText _ hp]; simp
  · rw [serveOneInner_handled _ errText _ hp hr, handled_spied, if_neg (fun ⟨h1, h2⟩ => hr h1 h2)]
  · have h1 : (r.method = .Put ∨ r.method = .Post) ∧ framing r.body = .tilClose := by
      unfold Acceptable at hr
      rw [Classical.not_imp] at hr
      exact ⟨hr.1, Classical.not_not.1 hr.2⟩
    rw [serveOneInner_refused _ errText _ hp hr, if_pos h1, List.append_nil]

/-- The log does not change what is served. -/
theorem C50_log_unseen (h : Handler c η σ ρ ε) (errText : Err → Bytes) (s : σ) (self : η) (log : List (HttpMethod × Bytes)) :
    ((spied h).serveOne errText (.ok s) (self, log)).1 = (h.serveOne errText (.ok s) self).1 ∧
    ((spied h).serveOne errText (.ok s) (self, log)).2.1 = (h.serveOne errText (.ok s) self).2.1 ∧
    ((spied h).serveOne errText (.ok s) (self, log)).2.2.1 = (h.serveOne errText (.ok s) self).2.2 := by
  rw [serveOne_spied]; exact ⟨rfl, rfl, rfl⟩

/-- In terms of what is on the connection: a request head (of a sendable target and header set), however it is
fragmented, and whatever follows it, leads to exactly one call, with the method and the target in the head; except that
PUT and POST need a content length or the chunked coding. -/
theorem C50_wire (h : Handler c η σ ρ ε) (errText : Err → Bytes) (s : σ) (self : η) (m : HttpMethod) (target : Bytes)
    (headers : HttpHeaders) (rest : List Ev) (ht : SendableTarget target) (hh : SendableHeaders headers.entries)
    (hl : LengthOk headers.entries) (hd : Delivers c (trace s) (requestHead m target headers.entries) rest) :
    ((m = .Put ∨ m = .Post → (b!"transfer-encoding", b!"chunked") ∈ headers.entries ∨
        ∃ v, (b!"content-length", v) ∈ headers.entries) →
      ((spied h).serveOne errText (.ok s) (self, [])).2.2.2 = [(m, target)]) ∧
    ((m = .Put ∨ m = .Post) → (b!"transfer-encoding", b!"chunked") ∉ headers.entries →
        (∀ v, (b!"content-length", v) ∉ headers.entries) →
      ((spied h).serveOne errText (.ok s) (self, [])).2.2.2 = []) := by
  obtain ⟨r, s1, h1, rfl, rfl, _, _, hf, _, _⟩ :=
    C18_roundtrip c (BufReader.new c s) m target headers rest ht hh hl (by rwa [BufReader.trace_new])
  have hc := C50_calls h errText s self []
  rw [h1] at hc
  dsimp only at hc
  rw [List.nil_append] at hc
  constructor
  · intro hm
    rw [hc, if_neg]
    rintro ⟨h2, h3⟩
    rw [h3] at hf
    cases hf with
    | tilClose h4 h5 =>
      rcases hm h2 with h6 | ⟨v, h6⟩
      · exact h4 h6
      · exact h5 v h6
  · intro hm h4 h5
    rw [hc, if_pos]
    refine ⟨hm, ?_⟩
    generalize framing r.body = f at hf
    cases hf with
    | chunked h => exact absurd h h4
    | limited _ h _ => exact absurd h (h5 _)
    | tilClose => rfl

omit [LawfulReader ρ] [ZeroReader ρ] [LawfulWriter σ] in
/-- What the method is given and what becomes of what it gives back: `put` and `post` get the body of the request; the
response is what the method returned, or what its error converts to. -/
theorem C50_handed (h : Handler c η σ ρ ε) (errText : Err → Bytes) (s : σ) (self : η)
    (r : HttpRequest c (BufReader c σ)) (s1 : BufReader c σ)
    (hp : HttpRequest.deserialize c (BufReader.new c s) = (.ok r, s1)) (hr : Acceptable r) :
    ((h.serveOneInner errText s self).1 =
      match (handled h r.method r.uri r.body self).1 with
      | .ok a => .ok a
      | .err e => .err (h.into e)
      | .panic => .panic) ∧
    (h.serveOneInner errText s self).2.2 = (handled h r.method r.uri r.body self).2.2 := by
  rw [serveOneInner_handled h errText self hp hr]
  refine ⟨?_, rfl⟩
  dsimp only
  cases (handled h r.method r.uri r.body self).1 <;> rfl

end

/-- Witness: `DELETE /a`, fragmented; and a PUT without a length. -/
example : let _ := asciiCase
    let s := fun evs => (Duplex.mk (Wire.mk evs) (Sink.mk [] 0 []) : Duplex Wire Sink)
    Delivers ⟨false⟩ (trace (s [.data b!"DELE", .data b!"TE /a HTTP/1.1\r\n\r", .data b!"\nmore"]))
      (requestHead .Delete b!"/a" []) (b!"more".map .byte) ∧
    SendableTarget b!"/a" ∧
    ((spied (sampleHandler ⟨false⟩)).serveOne (fun _ => []) (.ok (s [.data b!"DELE", .data b!"TE /a HTTP/1.1\r\n\r", .data b!"\nmore"]))
      (0, [])).2.2.2 = [(.Delete, b!"/a")] ∧
    ((spied (sampleHandler ⟨false⟩)).serveOne (fun _ => []) (.ok (s [.data b!"PUT /a HTTP/1.1\r\n\r\n"])) (0, [])).2.2.2 = [] := by
  intro inst s
  refine ⟨?_, ⟨by decide, isText_ascii (by decide), by decide, by decide, by unfold HasCrLf; decide⟩, by decide +kernel, by decide +kernel⟩
  have : requestHead .Delete b!"/a" [] = b!"DELETE /a HTTP/1.1\r\n\r\n" := by decide +kernel
  rw [this]
  exact delivers_map _ b!"DELETE /a HTTP/1.1\r\n\r\n" (b!"more".map .byte)

/-! ### C52 -/

section
variable [CaseMap] {c : Cfg} {η σ ρ ε : Type} [LawfulReader σ] [ZeroReader σ] [LawfulReader ρ] [ZeroReader ρ] [LawfulWriter σ]

/-- Serving a connection, from the response on. -/
theorem serveOne_respond (h : Handler c η σ ρ ε) (errText : Err → Bytes) (s : σ) (self : η) (r : ServerResponse c ρ)
    (hi : (h.serveOneInner errText s self).1 = .ok r ∨ (h.serveOneInner errText s self).1 = .err r) :
    (h.serveOne errText (.ok s) self).1 =
      (match (respond c r (h.serveOneInner errText s self).2.1).1 with | .ok () => .ok () | .error e => .err e) ∧
    (h.serveOne errText (.ok s) self).2.1 = some (respond c r (h.serveOneInner errText s self).2.1).2.2 := by
  unfold Handler.serveOne
  dsimp only
  rcases hx : h.serveOneInner errText s self with ⟨r' | r' | _, s1, self1⟩ <;> rw [hx] at hi <;>
    simp only [Reply.ok.injEq, Reply.err.injEq, reduceCtorEq, or_false, false_or, or_self] at hi
  · rw [hi]
    dsimp only
    rcases respond c r s1 with ⟨e | _, b, s2⟩ <;> exact ⟨rfl, rfl⟩
  · rw [hi]
    dsimp only
    rcases respond c r s1 with ⟨e | _, b, s2⟩ <;> exact ⟨rfl, rfl⟩

/-- Nothing is written before the response. -/
theorem inner_sent (hra : ReadsApart σ) (h : Handler c η σ ρ ε) (ho : OnlyReads h) (errText : Err → Bytes) (s : σ) (self : η) :
    sent (h.serveOneInner errText s self).2.1 = sent s :=
  inner_kept (P := fun s' => sent s' = sent s) ⟨fun s' n hs => by rw [← hs]; exact hra s' n⟩ h ho errText self rfl

/-- Whatever the connection delivers, however it takes what is written, and whatever the handler does: either the parser
or the handler panicked, and `serve_one` wrote nothing; or there is one response, and what `serve_one` wrote is its head
and its whole body if it succeeds, and a prefix of that if it fails. "Wrote" is what was added to the connection as the
handler left it (`C52_handler_quiet`: as it was accepted, if the handler only reads). Versions have two digits
(`C52_versions`). -/
theorem C52_written (h : Handler c η σ ρ ε) (errText : Err → Bytes) (s : σ) (self : η) :
    ∃ d, (h.serveOne errText (.ok s) self).2.1 = some d ∧
      (((h.serveOne errText (.ok s) self).1 = .panic ∧ (h.serveOneInner errText s self).1 = .panic ∧
          d = (h.serveOneInner errText s self).2.1) ∨
       ∃ r : ServerResponse c ρ,
        ((h.serveOneInner errText s self).1 = .ok r ∨ (h.serveOneInner errText s self).1 = .err r) ∧
        (r.version.major < 10 → r.version.minor < 10 →
          ((h.serveOne errText (.ok s) self).1 = .ok () ∧ ∃ bs t', Delivers c (trace r.body) bs t' ∧ Ended c t' ∧
            sent d = sent (h.serveOneInner errText s self).2.1 ++
              versionedHead r.version.major r.version.minor r.status.display r.headers.entries ++ bs) ∨
          (∃ e, (h.serveOne errText (.ok s) self).1 = .err e ∧ ∃ p bs t', Delivers c (trace r.body) bs t' ∧
            p <+: versionedHead r.version.major r.version.minor r.status.display r.headers.entries ++ bs ∧
            sent d = sent (h.serveOneInner errText s self).2.1 ++ p))) := by
  have main : ∀ r, ((h.serveOneInner errText s self).1 = .ok r ∨ (h.serveOneInner errText s self).1 = .err r) →
      r.version.major < 10 → r.version.minor < 10 →
          ((h.serveOne errText (.ok s) self).1 = .ok () ∧ ∃ bs t', Delivers c (trace r.body) bs t' ∧ Ended c t' ∧
            sent (respond c r (h.serveOneInner errText s self).2.1).2.2 = sent (h.serveOneInner errText s self).2.1 ++
              versionedHead r.version.major r.version.minor r.status.display r.headers.entries ++ bs) ∨
          (∃ e, (h.serveOne errText (.ok s) self).1 = .err e ∧ ∃ p bs t', Delivers c (trace r.body) bs t' ∧
            p <+: versionedHead r.version.major r.version.minor r.status.display r.headers.entries ++ bs ∧
            sent (respond c r (h.serveOneInner errText s self).2.1).2.2 =
              sent (h.serveOneInner errText s self).2.1 ++ p) := by
    intro r hi hv1 hv2
    obtain ⟨h1, h2⟩ := serveOne_respond h errText s self r hi
    rw [h1, ← response_versioned r hv1 hv2]
    rcases respond_sent r (h.serveOneInner errText s self).2.1 with ⟨h3, bs, t', h4, h5, h6⟩ | ⟨e, h3, p, bs, t', h4, h5, h6⟩
    · rw [h3]
      exact .inl ⟨rfl, bs, t', h4, h5, h6⟩
    · rw [h3]
      exact .inr ⟨e, rfl, p, bs, t', h4, h5, h6⟩
  rcases hx : (h.serveOneInner errText s self).1 with r | r | _
  · exact ⟨_, (serveOne_respond h errText s self r (.inl hx)).2, .inr ⟨r, .inl rfl, main r (.inl hx)⟩⟩
  · exact ⟨_, (serveOne_respond h errText s self r (.inr hx)).2, .inr ⟨r, .inr rfl, main r (.inr hx)⟩⟩
  · rcases hy : h.serveOneInner errText s self with ⟨r', s1, self1⟩
    rw [hy] at hx
    dsimp only at hx
    subst hx
    refine ⟨s1, ?_, .inl ⟨?_, rfl, rfl⟩⟩
    · unfold Handler.serveOne; dsimp only; rw [hy]
    · unfold Handler.serveOne; dsimp only; rw [hy]

/-- A handler that uses the body of the request only by reading leaves on the connection what was there, so what
`C52_written` says was added is all that was written. (With `std` a handler can get hold of the connection inside the
body, and write to it.) -/
theorem C52_handler_quiet (hra : ReadsApart σ) (h : Handler c η σ ρ ε) (ho : OnlyReads h) (errText : Err → Bytes) (s : σ)
    (self : η) : sent (h.serveOneInner errText s self).2.1 = sent s :=
  inner_sent hra h ho errText s self

omit [CaseMap] in
theorem version_digits {tok : Bytes} {v : HttpVersion} (h : HttpVersion.fromStr tok = .ok v) :
    v.major < 10 ∧ v.minor < 10 := by
  unfold HttpVersion.fromStr at h
  split at h <;> try (simp at h; done)
  split at h <;> try (simp at h; done)
  rename_i major p2 hp2
  split at h <;> try (simp at h; done)
  split at h <;> try (simp at h; done)
  rename_i minor p4 hp4
  simp only [Res.ok.injEq] at h
  subst h
  obtain ⟨d1, _, _, hd1, _⟩ := Parser.parseDigit_ok_inv hp2
  obtain ⟨d2, _, _, hd2, _⟩ := Parser.parseDigit_ok_inv hp4
  constructor
  · cases hd1 <;> assumption
  · cases hd2 <;> assumption

omit [CaseMap] in
theorem statusLine_digits {line : Bytes} {v : HttpVersion} {st : HttpStatus} (h : parseStatusLine line = .ok (v, st)) :
    v.major < 10 ∧ v.minor < 10 := by
  unfold parseStatusLine at h
  split at h <;> try (simp at h; done)
  split at h <;> try (simp at h; done)
  rename_i w hw
  split at h <;> try (simp at h; done)
  split at h <;> simp only [Res.ok.injEq, Prod.mk.injEq, reduceCtorEq] at h
  rw [← h.1]
  exact version_digits hw

omit [ZeroReader ρ] [LawfulWriter σ] [ZeroReader σ] [LawfulReader σ] in
/-- Every response has a version of two digits: new ones (also those made from a text), and those that were parsed. (The
field is private.) -/
theorem C52_versions (status : HttpStatus) (body : ρ) (s s' : ρ) (r : HttpResponse c (BufReader c ρ))
    (hp : HttpResponse.deserialize c s = (.ok r, s')) :
    (HttpResponse.new c status body).version = ⟨1, 1⟩ ∧ r.version.major < 10 ∧ r.version.minor < 10 := by
  refine ⟨rfl, ?_⟩
  unfold HttpResponse.deserialize at hp
  rcases hh : parseHead c parseStatusLine s with ⟨⟨⟨v, st⟩, _, _, _⟩ | _ | _, s1⟩ <;> rw [hh] at hp <;>
    simp only [Prod.mk.injEq, Res.ok.injEq, reduceCtorEq, false_and] at hp
  rw [← hp.1]
  unfold parseHead at hh
  split at hh <;> try (simp at hh; done)
  split at hh <;> try (simp at hh; done)
  rename_i a ha
  split at hh <;> try (simp at hh; done)
  split at hh <;> simp only [Prod.mk.injEq, Res.ok.injEq, reduceCtorEq, false_and] at hh
  rw [hh.1.1] at ha
  exact statusLine_digits ha

/-- On a transport that does not fail, with a response body that does not fail, serving succeeds and the whole response
has been written. -/
theorem C52_succeeds {P : σ → Prop} (hra : ReadsApart σ) (hrel : Reliable c P) (hkept : ∀ s n, P s → P (read s n).2)
    (h : Handler c η σ ρ ε) (ho : OnlyReads h) (errText : Err → Bytes) (s : σ) (self : η) (hs : P s)
    (r : ServerResponse c ρ)
    (hi : (h.serveOneInner errText s self).1 = .ok r ∨ (h.serveOneInner errText s self).1 = .err r)
    (hv1 : r.version.major < 10) (hv2 : r.version.minor < 10)
    (bs : Bytes) (t' : List Ev) (hd : Delivers c (trace r.body) bs t') (he : Ended c t') :
    (h.serveOne errText (.ok s) self).1 = .ok () ∧
    ∃ d, (h.serveOne errText (.ok s) self).2.1 = some d ∧ P d ∧
      sent d = sent s ++ versionedHead r.version.major r.version.minor r.status.display r.headers.entries ++ bs := by
  have hsent := inner_sent hra h ho errText s self
  have hP := inner_kept ⟨hkept⟩ h ho errText self hs
  obtain ⟨h1, h2⟩ := serveOne_respond h errText s self r hi
  obtain ⟨b, d, h3, h4⟩ := respond_ok hrel r hP hd he
  have h5 := respond_sent r (h.serveOneInner errText s self).2.1
  rw [h3] at h1 h2 h5
  refine ⟨h1, d, h2, h4, ?_⟩
  rcases h5 with ⟨_, bs', t2, h6, h7, h8⟩ | ⟨e, h6, _⟩
  · dsimp only at h8
    rw [h8, hsent, hd.ended_unique he h6 h7, response_versioned r hv1 hv2]
  · simp at h6

/-- The same for version 1.1. -/
theorem serve_succeeds {P : σ → Prop} (hra : ReadsApart σ) (hrel : Reliable c P) (hkept : ∀ s n, P s → P (read s n).2)
    (h : Handler c η σ ρ ε) (ho : OnlyReads h) (errText : Err → Bytes) (s : σ) (self : η) (hs : P s)
    (r : ServerResponse c ρ)
    (hi : (h.serveOneInner errText s self).1 = .ok r ∨ (h.serveOneInner errText s self).1 = .err r)
    (hv : r.version = ⟨1, 1⟩) (bs : Bytes) (t' : List Ev) (hd : Delivers c (trace r.body) bs t') (he : Ended c t') :
    (h.serveOne errText (.ok s) self).1 = .ok () ∧
    ∃ d, (h.serveOne errText (.ok s) self).2.1 = some d ∧ P d ∧
      sent d = sent s ++ responseHead r.status.display r.headers.entries ++ bs := by
  have := C52_succeeds hra hrel hkept h ho errText s self hs r hi (by rw [hv]; decide) (by rw [hv]; decide) bs t' hd he
  rwa [hv, versionedHead_one] at this

end

/-- A parsed response of version 1.0, as a proxy would pass it on. -/
example : let _ := asciiCase
    (match (HttpResponse.deserialize ⟨false⟩ (Wire.mk [.data b!"HTTP/1.0 404 Not Found\r\n\r\nno"])).1 with
      | .ok r => decide (r.version.major = 1 ∧ r.version.minor = 0 ∧
          versionedHead r.version.major r.version.minor r.status.display r.headers.entries =
            b!"HTTP/1.0 404 Not Found\r\n\r\n")
      | _ => false) = true := by decide +kernel

/-- Witness: the sample handler over a scripted connection that takes one byte, then seven, then everything; the response
body is interrupted once. The same connection with a sink that fails in the middle. And: the server does not flush. -/
example : let _ := asciiCase
    let serve := fun plan => (sampleHandler ⟨true⟩).serveOne (fun _ => [])
      (.ok (Duplex.mk (Wire.mk [.data b!"GET / HTTP/1.1\r", .data b!"\n\r\n"]) (Sink.mk [] 0 plan))) 0
    (serve [.accept 1, .accept 7]).1 = .ok () ∧
    (serve [.accept 1, .accept 7]).2.1.map sent = some b!"HTTP/1.1 200 OK\r\n\r\nhello" ∧
    (serve [.accept 1, .accept 7]).2.1.map wire = some [] ∧
    (serve [.accept 1, .accept 7, .fault .other]).1 = .err (.io (.other 0)) ∧
    (serve [.accept 1, .accept 7, .fault .other]).2.1.map sent = some b!"HTTP/" := by
  intro inst serve
  refine ⟨?_, ?_, ?_, ?_, ?_⟩ <;> decide +kernel

/-- Witness for `C52_succeeds`. -/
example : let _ := asciiCase
    let s : Duplex Wire Sink := ⟨⟨[.data b!"GET / HTTP/1.1\r\n\r\n"]⟩, ⟨[], 0, []⟩⟩
    let r : ServerResponse ⟨true⟩ Wire := HttpResponse.new ⟨true⟩ .OK (.B ⟨[.data b!"he", .fault (.io .interrupted), .data b!"llo"]⟩)
    ReadsApart (Duplex Wire Sink) ∧ Reliable ⟨true⟩ (fun s : Duplex Wire Sink => ∀ a ∈ s.wr.plan, (∃ n, a = .accept (n + 1)) ∨ ∃ e, a = .fault e ∧ Retried ⟨true⟩ e) ∧
    OnlyReads (sampleHandler ⟨true⟩) ∧ s.wr.plan = [] ∧
    (match ((sampleHandler ⟨true⟩).serveOneInner (fun _ => []) s 0).1 with | .ok r => decide (r.status = .OK ∧ r.version = ⟨1, 1⟩) | _ => false) = true ∧
    ∃ t', Delivers ⟨true⟩ (trace r.body) b!"hello" t' ∧ Ended ⟨true⟩ t' := by
  intro inst s r
  refine ⟨duplex_readsApart, duplex_reliable (sink_reliable _), sampleHandler_onlyReads _, rfl, by decide +kernel, [], ?_, by simp [Ended]⟩
  have : trace r.body = b!"he".map .byte ++ .fault (.io .interrupted) :: b!"llo".map .byte := by decide +kernel
  rw [this]
  exact .byte _ (.byte _ (.retry ⟨rfl, rfl⟩ (.byte _ (.byte _ (.byte _ (.nil _))))))

/-! ### C51 -/

section
variable [CaseMap] {c : Cfg} {η σ ρ ε : Type} [LawfulReader σ] [ZeroReader σ] [LawfulReader ρ] [ZeroReader ρ] [LawfulWriter σ]

omit [CaseMap] in
/-- A response made from a text has that text as its body. -/
theorem fromString_body (status : HttpStatus) (text : Bytes) :
    (ServerResponse.fromString c (ρ := ρ) status text).version = ⟨1, 1⟩ ∧
    (ServerResponse.fromString c (ρ := ρ) status text).status = status ∧
    (ServerResponse.fromString c (ρ := ρ) status text).headers.entries = [] ∧
    ∃ t', Delivers c (trace (ServerResponse.fromString c (ρ := ρ) status text).body) text t' ∧ Ended c t' := by
  refine ⟨rfl, rfl, rfl, [], ?_, by simp [Ended]⟩
  have : trace (ServerResponse.fromString c (ρ := ρ) status text).body = text.map .byte := by
    show trace (BufReader.new c (StreamEither.A (Cursor.new text) : Boxed ρ)) = _
    rw [BufReader.trace_new]
    show (text.drop 0).map Ev.byte = _
    rw [List.drop_zero]
  rw [this]
  exact delivers_map' c text

/-- A request that makes the parser return an error is answered with status 500 and the text of the error, and the
handler is not touched. Missing for the full property: requests that panic the parser (`C51_unanswered_false`). -/
theorem C51_unparsable_partial {P : σ → Prop} (hra : ReadsApart σ) (hrel : Reliable c P) (hkept : ∀ s n, P s → P (read s n).2)
    (h : Handler c η σ ρ ε) (ho : OnlyReads h) (errText : Err → Bytes) (s : σ) (self : η) (hs : P s) (e : Err)
    (hp : (HttpRequest.deserialize c (BufReader.new c s)).1 = .err e) (hf : ∀ e, .fault e ∈ trace s → e ≠ .lengthRequired) :
    (h.serveOne errText (.ok s) self).1 = .ok () ∧ (h.serveOne errText (.ok s) self).2.2 = self ∧
    ∃ d, (h.serveOne errText (.ok s) self).2.1 = some d ∧
      sent d = sent s ++ responseHead (utf8 "500 Internal Server Error") [] ++ errText e := by
  rcases hp' : HttpRequest.deserialize c (BufReader.new c s) with ⟨r, s1⟩
  have hp0 := hp
  rw [hp'] at hp
  dsimp only at hp
  subst hp
  have hne : e ≠ .lengthRequired := by
    rcases request_faults hp0 with h1 | h1
    · rw [BufReader.trace_new] at h1; exact hf e h1
    · rcases h1 with h1 | h1 | h1 | h1 <;> rw [h1] <;> simp
  have hresp : ServerResponse.ofError c (ρ := ρ) errText e = ServerResponse.fromString c .InternalServerError (errText e) := by
    unfold ServerResponse.ofError
    cases e <;> first | rfl | exact absurd rfl hne
  have hi := serveOneInner_err h errText self hp'
  rw [hresp] at hi
  obtain ⟨h1, h2, h3, t', h4, h5⟩ := fromString_body (c := c) (ρ := ρ) .InternalServerError (errText e)
  obtain ⟨g1, d, g2, _, g3⟩ := serve_succeeds hra hrel hkept h ho errText s self hs _ (.inr (by rw [hi])) h1 _ t' h4 h5
  rw [h2, h3] at g3
  refine ⟨g1, ?_, d, g2, ?_⟩
  · unfold Handler.serveOne
    dsimp only
    rw [hi]
    dsimp only
    rcases respond c (ServerResponse.fromString c .InternalServerError (errText e)) s1.inner with ⟨_ | _, _, _⟩ <;> rfl
  · rw [g3, show utf8 "500 Internal Server Error" = HttpStatus.display .InternalServerError by decide +kernel]

/-- A PUT or POST request with neither the chunked coding nor a content length is answered with 411, and the handler is
not touched. -/
theorem C51_length_required {P : σ → Prop} (hra : ReadsApart σ) (hrel : Reliable c P) (hkept : ∀ s n, P s → P (read s n).2)
    (h : Handler c η σ ρ ε) (ho : OnlyReads h) (errText : Err → Bytes) (s : σ) (self : η) (hs : P s)
    (r : HttpRequest c (BufReader c σ)) (hp : (HttpRequest.deserialize c (BufReader.new c s)).1 = .ok r)
    (hm : r.method = .Put ∨ r.method = .Post) (hc : (b!"transfer-encoding", b!"chunked") ∉ r.headers.entries)
    (hl : ∀ v, (b!"content-length", v) ∉ r.headers.entries) :
    (h.serveOne errText (.ok s) self).1 = .ok () ∧ (h.serveOne errText (.ok s) self).2.2 = self ∧
    ∃ d, (h.serveOne errText (.ok s) self).2.1 = some d ∧
      sent d = sent s ++ responseHead (utf8 "411 Length Required") [] ++ utf8 "length required" := by
  rcases hp' : HttpRequest.deserialize c (BufReader.new c s) with ⟨r', s1⟩
  rw [hp'] at hp
  dsimp only at hp
  subst hp
  have hna : ¬ Acceptable r := fun ha => ha hm ((C32_require_length r.body).1.1 ((C32_parsed _ _ _ hp').2 ⟨hc, hl⟩))
  have hi := serveOneInner_refused h errText self hp' hna
  obtain ⟨h1, h2, h3, t', h4, h5⟩ := fromString_body (c := c) (ρ := ρ) .LengthRequired b!"length required"
  obtain ⟨g1, d, g2, _, g3⟩ := serve_succeeds hra hrel hkept h ho errText s self hs _ (.inr (by rw [hi])) h1 _ t' h4 h5
  rw [h2, h3] at g3
  refine ⟨g1, ?_, d, g2, ?_⟩
  · unfold Handler.serveOne
    dsimp only
    rw [hi]
    dsimp only
    rcases respond c (ServerResponse.fromString c .LengthRequired b!"length required") s1.inner with ⟨_ | _, _, _⟩ <;> rfl
  · rw [g3, show utf8 "411 Length Required" = HttpStatus.display .LengthRequired by decide +kernel,
      show utf8 "length required" = b!"length required" by decide +kernel]

/-- When the handler's method fails with `e`, the answer is the response that `e` converts to. -/
theorem C51_handler_error {P : σ → Prop} (hra : ReadsApart σ) (hrel : Reliable c P) (hkept : ∀ s n, P s → P (read s n).2)
    (h : Handler c η σ ρ ε) (ho : OnlyReads h) (errText : Err → Bytes) (s : σ) (self : η) (hs : P s)
    (r : HttpRequest c (BufReader c σ)) (hp : (HttpRequest.deserialize c (BufReader.new c s)).1 = .ok r) (ha : Acceptable r)
    (e : ε) (he : (handled h r.method r.uri r.body self).1 = .err e) (hv1 : (h.into e).version.major < 10)
    (hv2 : (h.into e).version.minor < 10) (bs : Bytes) (t' : List Ev) (hd : Delivers c (trace (h.into e).body) bs t') (hend : Ended c t') :
    (h.serveOne errText (.ok s) self).1 = .ok () ∧
    ∃ d, (h.serveOne errText (.ok s) self).2.1 = some d ∧
      sent d = sent s ++ versionedHead (h.into e).version.major (h.into e).version.minor (h.into e).status.display
        (h.into e).headers.entries ++ bs := by
  rcases hp' : HttpRequest.deserialize c (BufReader.new c s) with ⟨r', s1⟩
  rw [hp'] at hp
  dsimp only at hp
  subst hp
  have hi := (C50_handed h errText s self r s1 hp' ha).1
  rw [he] at hi
  obtain ⟨g1, d, g2, _, g3⟩ := C52_succeeds hra hrel hkept h ho errText s self hs _ (.inr hi) hv1 hv2 bs t' hd hend
  exact ⟨g1, d, g2, g3⟩

end

/-- Witness: the three kinds of error, over scripted connections. -/
example : let _ := asciiCase
    let s := fun bs => (Duplex.mk (Wire.mk [.data bs]) (Sink.mk [] 0 []) : Duplex Wire Sink)
    let out := fun bs => ((sampleHandler ⟨false⟩).serveOne (fun _ => b!"oops") (.ok (s bs)) 0).2.1.map sent
    (HttpRequest.deserialize ⟨false⟩ (BufReader.new ⟨false⟩ (s b!"GET\r\n\r\n"))).1 matches .err .unexpectedEof ∧
    out b!"GET\r\n\r\n" = some b!"HTTP/1.1 500 Internal Server Error\r\n\r\noops" ∧
    (∀ e, .fault e ∈ trace (s b!"GET\r\n\r\n") → e ≠ .lengthRequired) ∧
    out b!"POST / HTTP/1.1\r\n\r\n" = some b!"HTTP/1.1 411 Length Required\r\n\r\nlength required" ∧
    out b!"GET /missing HTTP/1.1\r\n\r\n" = some b!"HTTP/1.1 404 Not Found\r\n\r\nno such file" := by
  intro inst s out
  refine ⟨by decide +kernel, by decide +kernel, ?_, by decide +kernel, by decide +kernel⟩
  intro e he
  simp [s, Duplex.trace_eq, Wire.trace_eq, WireEv.events] at he

/-! ### C53 -/

section
variable {c : Cfg} {η σ ρ ε : Type} [LawfulReader ρ] [ZeroReader ρ]

/-- A method that is not overridden answers 405 with a short text, leaves the handler and the body of the request alone. -/
theorem C53_default (into : ε → ServerResponse c ρ) (m : HttpMethod) (uri : Bytes) (body : HttpBody c (BufReader c σ)) (self : η) :
    ∃ r, handled (Handler.defaults c η σ ρ ε into) m uri body self = (.ok r, body, self) ∧
      r.status.display = utf8 "405 Method Not Allowed" ∧ r.status.toCode = 405 ∧ r.version = ⟨1, 1⟩ ∧ r.headers.entries = [] ∧
      Yields r.body (utf8 (refusal m)) := by
  have key : ∀ text : Bytes, Yields (ServerResponse.fromString c (ρ := ρ) .MethodNotAllowed text).body text := by
    intro text
    apply yields_of_trace
    show trace (BufReader.new c (StreamEither.A (Cursor.new text) : Boxed ρ)) = _
    rw [BufReader.trace_new]
    show (text.drop 0).map Ev.byte = _
    rw [List.drop_zero]
  have h405 : HttpStatus.display .MethodNotAllowed = utf8 "405 Method Not Allowed" := by decide +kernel
  cases m
  all_goals refine ⟨_, rfl, h405, rfl, rfl, rfl, ?_⟩
  · rw [show utf8 (refusal .Delete) = b!"DELETE not allowed" by decide +kernel]; exact key _
  · rw [show utf8 (refusal .Get) = b!"GET not allowed" by decide +kernel]; exact key _
  · rw [show utf8 (refusal .Head) = b!"HEAD not allowed" by decide +kernel]; exact key _
  · rw [show utf8 (refusal .Options) = b!"OPTIONS not allowed" by decide +kernel]; exact key _
  · rw [show utf8 (refusal .Post) = b!"PUT not allowed" by decide +kernel]; exact key _
  · rw [show utf8 (refusal .Put) = b!"PUT not allowed" by decide +kernel]; exact key _
  · rw [show utf8 (refusal .Trace) = b!"TRACE not allowed" by decide +kernel]; exact key _

end

/-- Witness: overriding two methods leaves the others at their defaults. -/
example (c : Cfg) (uri : Bytes) (body : HttpBody c (BufReader c (Duplex Wire Sink))) (n : Nat) :
    handled (sampleHandler c) .Trace uri body n =
      handled (Handler.defaults c Nat (Duplex Wire Sink) Wire Bytes fun e => ServerResponse.fromString c .NotFound e) .Trace uri body n := rfl

/-! ### C54 -/

section
variable [CaseMap] {c : Cfg} {η σ ρ ε : Type} [LawfulReader σ] [LawfulReader ρ] [ZeroReader ρ] [LawfulWriter σ]

theorem serveForever_step (h : Handler c η σ ρ ε) (errText : Err → Bytes) {a : Res σ} {l : List (Res σ)} {self self1 : η}
    {res : Res Unit} {d : Option σ} (ha : h.serveOne errText a self = (res, d, self1)) (hp : res ≠ .panic) :
    h.serveForever errText (a :: l) self =
      ((res, d) :: (h.serveForever errText l self1).1, (h.serveForever errText l self1).2) := by
  rw [Handler.serveForever, ha]
  cases res with
  | ok => rfl
  | err => rfl
  | panic => exact absurd rfl hp

/-- The loop, as long as nothing panics: every connection is served, in the order of `accept`, and the result of
serving one depends on the others only through the state of the handler (`st i`, before the `i`-th connection). -/
theorem C54_in_order_partial (h : Handler c η σ ρ ε) (errText : Err → Bytes) (accepted : List (Res σ)) (self : η)
    (hno : ∀ a ∈ accepted, ∀ self, (h.serveOne errText a self).1 ≠ .panic) :
    ∃ st : Nat → η, st 0 = self ∧ (h.serveForever errText accepted self).2 = st accepted.length ∧
      (h.serveForever errText accepted self).1.length = accepted.length ∧
      ∀ i a, accepted[i]? = some a → ∃ res d, (h.serveForever errText accepted self).1[i]? = some (res, d) ∧
        h.serveOne errText a (st i) = (res, d, st (i + 1)) := by
  induction accepted generalizing self with
  | nil => exact ⟨fun _ => self, rfl, rfl, rfl, by simp⟩
  | cons a rest ih =>
    rcases ha : h.serveOne errText a self with ⟨res, d, self1⟩
    obtain ⟨st, h1, h2, h3, h4⟩ := ih self1 fun a' ha' => hno a' (List.mem_cons_of_mem _ ha')
    have hp := hno a (List.mem_cons_self) self
    rw [ha] at hp
    rw [serveForever_step h errText ha hp]
    refine ⟨fun i => match i with | 0 => self | i + 1 => st i, rfl, h2, by simp [h3], ?_⟩
    intro i a' hi
    cases i with
    | zero =>
      simp only [List.getElem?_cons_zero, Option.some.injEq] at hi
      rw [← hi]
      exact ⟨res, d, rfl, by rw [ha]; dsimp only; rw [h1]⟩
    | succ i =>
      rw [List.getElem?_cons_succ] at hi ⊢
      exact h4 i a' hi

/-- If the handler remembers nothing, every connection gets what it would get alone. -/
theorem C54_independent_partial (h : Handler c η σ ρ ε) (errText : Err → Bytes) (accepted : List (Res σ)) (self : η)
    (hno : ∀ a ∈ accepted, ∀ self, (h.serveOne errText a self).1 ≠ .panic)
    (hm : ∀ m uri body self, (handled h m uri body self).2.2 = self) (hr : ∀ body self, h.release body self = self) :
    (h.serveForever errText accepted self).1 =
      accepted.map (fun a => ((h.serveOne errText a self).1, (h.serveOne errText a self).2.1)) := by
  have hself : ∀ a self, (h.serveOne errText a self).2.2 = self := by
    intro a self
    cases a with
    | err e => rfl
    | panic => rfl
    | ok s =>
      have hin : (h.serveOneInner errText s self).2.2 = self := by
        rcases inner_cases h errText s self with ⟨e, s1, hp⟩ | ⟨s1, hp⟩ | ⟨r, s1, hp, hr⟩ | ⟨r, s1, hp, hr⟩
        · rw [serveOneInner_err h errText self hp]
        · rw [serveOneInner_panic h errText self hp]
        · rw [serveOneInner_handled h errText self hp hr]; exact hm _ _ _ _
        · rw [serveOneInner_refused h errText self hp hr]
      unfold Handler.serveOne
      dsimp only
      rcases hx : h.serveOneInner errText s self with ⟨r | r | _, s1, self1⟩ <;> rw [hx] at hin
      · dsimp only
        rcases respond c r s1 with ⟨e | _, b, s2⟩ <;> dsimp only <;> rw [hr] <;> exact hin
      · dsimp only
        rcases respond c r s1 with ⟨e | _, b, s2⟩ <;> exact hin
      · exact hin
  induction accepted generalizing self with
  | nil => rfl
  | cons a rest ih =>
    have hs := hself a self
    have hp := hno a (List.mem_cons_self) self
    have ih := ih self fun a' ha' => hno a' (List.mem_cons_of_mem _ ha')
    rw [List.map_cons, ← ih]
    rcases ha : h.serveOne errText a self with ⟨res, d, self1⟩
    rw [ha] at hs hp
    dsimp only at hs
    subst hs
    rw [serveForever_step h errText ha hp]

/-- When nothing panics: `accept` does not, the bytes on the connection are ASCII, and the handler's methods do not. -/
theorem C54_no_panic_partial (h : Handler c η σ ρ ε) (errText : Err → Bytes) (a : Res σ) (self : η)
    (ha : a ≠ .panic) (hascii : ∀ s, a = .ok s → ∀ b, Ev.byte b ∈ trace s → b.toNat < 128)
    (hh : ∀ m uri body self, (handled h m uri body self).1 ≠ .panic) :
    (h.serveOne errText a self).1 ≠ .panic := by
  cases a with
  | panic => exact absurd rfl ha
  | err e => unfold Handler.serveOne; simp
  | ok s =>
    have hin : (h.serveOneInner errText s self).1 ≠ .panic := by
      rcases inner_cases h errText s self with ⟨e, s1, hp⟩ | ⟨s1, hp⟩ | ⟨r, s1, hp, hr⟩ | ⟨r, s1, hp, hr⟩
      · rw [serveOneInner_err h errText self hp]; simp
      · exact absurd (by rw [hp]) ((C11_ascii_partial c (BufReader.new c s) (by rw [BufReader.trace_new]; exact hascii s rfl)).1)
      · rw [serveOneInner_handled h errText self hp hr]
        have := hh r.method r.uri r.body self
        dsimp only
        generalize (handled h r.method r.uri r.body self).1 = x at this
        cases x with
        | ok => simp [Reply.mapErr]
        | err => simp [Reply.mapErr]
        | panic => exact absurd rfl this
      · rw [serveOneInner_refused h errText self hp hr]; simp
    unfold Handler.serveOne
    dsimp only
    rcases hx : h.serveOneInner errText s self with ⟨r | r | _, s1, self1⟩ <;> rw [hx] at hin
    · dsimp only
      rcases respond c r s1 with ⟨e | _, b, s2⟩ <;> simp
    · dsimp only
      rcases respond c r s1 with ⟨e | _, b, s2⟩ <;> simp
    · exact absurd rfl hin

/-- C54 is false: any peer can stop the server for good by sending one header line whose value begins with a byte above
0x7F. Whatever connections came before, and whatever is waiting, this is the last one served: the panic leaves
`serve_forever`, and nothing has been written to that peer or to those waiting. -/
theorem C54_stopped_false (hra : ReadsApart σ) (h : Handler c η σ ρ ε) (errText : Err → Bytes) (before after : List (Res σ)) (s : σ)
    (self : η) (rest : List Ev) (hd : Delivers c (trace s) b!"GET / HTTP/1.1\r\na:é\r\n\r\n" rest)
    (hno : ∀ a ∈ before, ∀ self, (h.serveOne errText a self).1 ≠ .panic) :
    ∃ d, sent d = sent s ∧
    (h.serveForever errText (before ++ .ok s :: after) self).1 = (h.serveForever errText before self).1 ++ [(.panic, some d)] := by
  have hpan := (C11_no_panic_false c (BufReader.new c s) rest).1 (by rwa [BufReader.trace_new])
  rcases hp : HttpRequest.deserialize c (BufReader.new c s) with ⟨x, s1⟩
  rw [hp] at hpan
  dsimp only at hpan
  subst hpan
  have hb : ReadKept fun r : BufReader c σ => sent r.inner = sent s :=
    ReadKept.bufReader (P := fun s' => sent s' = sent s) ⟨fun s' n hs => by rw [← hs]; exact hra s' n⟩
  have hs1 := hb.request (c := c) (s := BufReader.new c s) rfl
  rw [hp] at hs1
  have hone : ∀ self, h.serveOne errText (.ok s) self = (.panic, some s1.inner, self) := by
    intro self
    unfold Handler.serveOne
    dsimp only
    rw [serveOneInner_panic h errText self hp]
  refine ⟨s1.inner, hs1, ?_⟩
  induction before generalizing self with
  | nil =>
    show (h.serveForever errText (.ok s :: after) self).1 = [] ++ [(.panic, some s1.inner)]
    unfold Handler.serveForever
    rw [hone]; rfl
  | cons a before ih =>
    rcases ha : h.serveOne errText a self with ⟨res, d, self1⟩
    have hp := hno a (List.mem_cons_self) self
    have ih := ih self1 fun a' ha' => hno a' (List.mem_cons_of_mem _ ha')
    rw [ha] at hp
    rw [List.cons_append, serveForever_step h errText ha hp, serveForever_step h errText ha hp, ih, List.cons_append]

/-- C51 is false for requests that panic the parser: this one is not parsed, and nothing at all is written to the
connection, whatever the handler and the transport are. -/
theorem C51_unanswered_false (hra : ReadsApart σ) (h : Handler c η σ ρ ε) (errText : Err → Bytes) (s : σ) (self : η)
    (rest : List Ev) (hd : Delivers c (trace s) b!"GET / HTTP/1.1\r\na:é\r\n\r\n" rest) :
    (∀ r, (HttpRequest.deserialize c (BufReader.new c s)).1 ≠ .ok r) ∧
    (h.serveOne errText (.ok s) self).1 = .panic ∧
    ∃ d, (h.serveOne errText (.ok s) self).2.1 = some d ∧ sent d = sent s := by
  have hpan := (C11_no_panic_false c (BufReader.new c s) rest).1 (by rwa [BufReader.trace_new])
  rcases hp : HttpRequest.deserialize c (BufReader.new c s) with ⟨x, s1⟩
  rw [hp] at hpan
  dsimp only at hpan
  subst hpan
  have hb : ReadKept fun r : BufReader c σ => sent r.inner = sent s :=
    ReadKept.bufReader (P := fun s' => sent s' = sent s) ⟨fun s' n hs => by rw [← hs]; exact hra s' n⟩
  have hs1 := hb.request (c := c) (s := BufReader.new c s) rfl
  rw [hp] at hs1
  have hone : h.serveOne errText (.ok s) self = (.panic, some s1.inner, self) := by
    unfold Handler.serveOne
    dsimp only
    rw [serveOneInner_panic h errText self hp]
  rw [hone]
  exact ⟨fun r => by simp, rfl, s1.inner, rfl, hs1⟩

end

/-- Witness: two clients, a failed accept, the fatal request, and a client that waits in vain. -/
example : let _ := asciiCase
    let conn := fun bs => (.ok (Duplex.mk (Wire.mk [.data bs]) (Sink.mk [] 0 [])) : Res (Duplex Wire Sink))
    let run := fun l => (sampleHandler ⟨true⟩).serveForever (fun _ => b!"oops") l 0
    let shown := fun l => (run l).1.map fun x => (x.1, x.2.map sent)
    shown [conn b!"GET /missing HTTP/1.1\r\n\r\n", .err .ssl, conn b!"\r\n"] =
      [(.ok (), some b!"HTTP/1.1 404 Not Found\r\n\r\nno such file"), (.err (.io (.other 0)), none),
       (.ok (), some b!"HTTP/1.1 500 Internal Server Error\r\n\r\noops")] ∧
    shown [conn b!"GET /missing HTTP/1.1\r\n\r\n", conn b!"GET / HTTP/1.1\r\na:é\r\n\r\n", conn b!"GET / HTTP/1.1\r\n\r\n"] =
      [(.ok (), some b!"HTTP/1.1 404 Not Found\r\n\r\nno such file"), (.panic, some [])] := by
  intro inst conn run shown
  refine ⟨?_, ?_⟩ <;> decide +kernel

/-- Witness for the hypotheses: the sample handler never panics, and these connections carry ASCII. -/
example (body : HttpBody ⟨true⟩ (BufReader ⟨true⟩ (Duplex Wire Sink))) (uri : Bytes) (m : HttpMethod) (n : Nat) :
    (handled (sampleHandler ⟨true⟩) m uri body n).1 ≠ .panic ∧
    ∀ b, Ev.byte b ∈ trace (Duplex.mk (Wire.mk [.data b!"GET"]) (Sink.mk [] 0 []) : Duplex Wire Sink) → b.toNat < 128 := by
  constructor
  · cases m <;> simp only [handled, sampleHandler, Handler.defaults, Handler.defaultDelete, Handler.defaultHead,
      Handler.defaultOptions, Handler.defaultPost, Handler.defaultTrace, ne_eq, reduceCtorEq, not_false_eq_true]
    split <;> simp
  · intro b hb
    simp [Duplex.trace_eq, Wire.trace_eq, WireEv.events] at hb
    rcases hb with rfl | rfl | rfl <;> decide

end HttpIo
