import Verif.Props.Breaks
import Verif.Props.Server
import Verif.Props.Files

/-! C170: empty lines before a message, and lines that end with a lone line feed. -/

namespace HttpIo
open Spec

section
variable {σ : Type} [LawfulReader σ]

/-- A line that is empty is the end of a block of lines, also when it comes first. -/
theorem expectNext_blank {c : Cfg} {s : σ} {t : List Ev} (hd : Delivers c (trace s) [13, 10] t) :
    ∃ s', expectNext c s = (.error .unexpectedEof, s') ∧ trace s' = t := by
  have h := innerNextT_line (l := []) (by unfold HasCrLf; decide) (by simpa using hd)
  obtain ⟨h1, h2⟩ := innerNext_eq (s := s) h
  refine ⟨(innerNext c s).2, ?_, h2⟩
  unfold expectNext
  rcases hi : innerNext c s with ⟨r, s1⟩
  rw [hi] at h1
  dsimp only at h1
  subst h1
  rfl

end

section
variable [CaseMap] {c : Cfg} {η σ ρ ε : Type} [LawfulReader σ] [ZeroReader σ] [LawfulWriter σ] [LawfulReader ρ] [ZeroReader ρ]

omit [ZeroReader σ] [LawfulWriter σ] in
/-- Full statement (RFC 7230, section 3.5): an empty line before a request is passed over. What holds: it is taken for the end
of the head. The parser takes these two bytes and no more and reports an unexpected end, whatever follows. -/
theorem C170_request_partial (s : σ) (t : List Ev) (hd : Delivers c (trace s) [13, 10] t) :
    ∃ s', HttpRequest.deserialize c s = (.err .unexpectedEof, s') ∧ trace s' = t := by
  obtain ⟨s', h1, h2⟩ := expectNext_blank hd
  exact ⟨s', by unfold HttpRequest.deserialize parseHead; rw [h1], h2⟩

omit [ZeroReader σ] [LawfulWriter σ] in
/-- The same for a response: if a server sends an empty line after the body of a response, the next one on the connection is
not read. -/
theorem C170_response_partial (s : σ) (t : List Ev) (hd : Delivers c (trace s) [13, 10] t) :
    ∃ s', HttpResponse.deserialize c s = (.err .unexpectedEof, s') ∧ trace s' = t := by
  obtain ⟨s', h1, h2⟩ := expectNext_blank hd
  exact ⟨s', by unfold HttpResponse.deserialize parseHead; rw [h1], h2⟩

/-- The server's answer to whatever follows an empty line is 500, and the handler is not asked. -/
theorem C170_answer_partial {P : σ → Prop} (hra : ReadsApart σ) (hrel : Reliable c P) (hkept : ∀ s n, P s → P (read s n).2)
    (h : Handler c η σ ρ ε) (ho : OnlyReads h) (errText : Err → Bytes) (s : σ) (self : η) (hs : P s) (t : List Ev)
    (hd : Delivers c (trace s) [13, 10] t) :
    (h.serveOne errText (.ok s) self).1 = .ok () ∧ (h.serveOne errText (.ok s) self).2.2 = self ∧
    ∃ d, (h.serveOne errText (.ok s) self).2.1 = some d ∧
      sent d = sent s ++ responseHead (utf8 "500 Internal Server Error") [] ++ errText .unexpectedEof := by
  obtain ⟨s1, hp, _⟩ := C170_request_partial (c := c) (BufReader.new c s) t (by rwa [BufReader.trace_new])
  have hi := serveOneInner_err h errText self hp
  rw [show ServerResponse.ofError c (ρ := ρ) errText .unexpectedEof =
    ServerResponse.fromString c .InternalServerError (errText .unexpectedEof) from rfl] at hi
  obtain ⟨h1, h2, h3, t', h4, h5⟩ := fromString_body (c := c) (ρ := ρ) .InternalServerError (errText .unexpectedEof)
  obtain ⟨g1, d, g2, _, g3⟩ := serve_succeeds hra hrel hkept h ho errText s self hs _ (.inr (by rw [hi])) h1 _ t' h4 h5
  rw [h2, h3] at g3
  refine ⟨g1, ?_, d, g2, ?_⟩
  · unfold Handler.serveOne
    dsimp only
    rw [hi]
    dsimp only
    rcases respond c (ServerResponse.fromString c .InternalServerError (errText .unexpectedEof)) s1.inner with ⟨_ | _, _, _⟩ <;> rfl
  · rw [g3, show utf8 "500 Internal Server Error" = HttpStatus.display .InternalServerError by decide +kernel]

omit [ZeroReader σ] [LawfulWriter σ] in
/-- Lines that end with a lone line feed are not lines: as long as there is no CR LF the parsers read on, to the end of the
stream, and then report that it has ended. -/
theorem C170_lf_partial (s : σ) (bs : Bytes) (t : List Ev) (hb : ¬ HasCrLf bs) (hd : Delivers c (trace s) bs t) (he : Ended c t) :
    (HttpRequest.deserialize c s).1 = .err .unexpectedEof ∧ (HttpResponse.deserialize c s).1 = .err .unexpectedEof :=
  ⟨C91_request c s _ (.inl ⟨bs, t, hd, hb, .inr ⟨he, rfl⟩⟩), C91_response c s _ (.inl ⟨bs, t, hd, hb, .inr ⟨he, rfl⟩⟩)⟩

end

/-- False: a request that is served is refused if an empty line comes before it, or if its lines end with line feeds. -/
theorem C170_false (c : Cfg) : let _ := asciiCase
    let server := fileHandler c (Duplex Wire Sink) b!"/srv" fun _ => []
    let get (s : String) := (server.serveOne (fun _ => []) (.ok (requestConn (utf8 s))) sampleFs).2.1.map sent
    get "GET /a HTTP/1.1\r\n\r\n" = some (utf8 "HTTP/1.1 200 OK\r\n\r\nold") ∧
    get "\r\nGET /a HTTP/1.1\r\n\r\n" = some (utf8 "HTTP/1.1 500 Internal Server Error\r\n\r\n") ∧
    get "GET /a HTTP/1.1\n\n" = some (utf8 "HTTP/1.1 500 Internal Server Error\r\n\r\n") := by
  intro inst server get
  refine ⟨?_, ?_, ?_⟩ <;> rcases c with ⟨_ | _⟩ <;> decide +kernel

/-- Witness for C170: an empty line and then a request, and lines that end with line feeds. -/
example : let _ := asciiCase
    let s := requestConn (utf8 "\r\nGET / HTTP/1.1\r\n\r\n")
    let u := requestConn (utf8 "GET / HTTP/1.1\n\n")
    Delivers ⟨true⟩ (trace s) [13, 10] ((utf8 "GET / HTTP/1.1\r\n\r\n").map Ev.byte) ∧
    (((fileHandler ⟨true⟩ (Duplex Wire Sink) b!"/srv" fun _ => b!"end").serveOne (fun _ => b!"end") (.ok s) sampleFs).1 = .ok () ∧
     ∃ d, ((fileHandler ⟨true⟩ (Duplex Wire Sink) b!"/srv" fun _ => b!"end").serveOne (fun _ => b!"end") (.ok s) sampleFs).2.1 = some d ∧
      sent d = responseHead (utf8 "500 Internal Server Error") [] ++ b!"end") ∧
    Delivers ⟨true⟩ (trace u) (utf8 "GET / HTTP/1.1\n\n") [] ∧ ¬ HasCrLf (utf8 "GET / HTTP/1.1\n\n") ∧ Ended ⟨true⟩ [] := by
  intro inst s u
  have h1 : Delivers ⟨true⟩ (trace s) [13, 10] ((utf8 "GET / HTTP/1.1\r\n\r\n").map Ev.byte) := by
    have : trace s = [13, 10].map Ev.byte ++ (utf8 "GET / HTTP/1.1\r\n\r\n").map Ev.byte := by decide +kernel
    rw [this]; exact delivers_map _ _ _
  refine ⟨h1, ?_, ?_, ?_, by simp [Ended]⟩
  · obtain ⟨g1, _, d, g2, g3⟩ := C170_answer_partial duplex_readsApart (duplex_reliable (sink_reliable ⟨true⟩)) (fun _ _ h => h)
      (fileHandler ⟨true⟩ (Duplex Wire Sink) b!"/srv" fun _ => b!"end")
      (fileHandler_onlyReads b!"/srv" fun _ => b!"end") (fun _ => b!"end") s sampleFs (by simp [s, requestConn]) _ h1
    exact ⟨g1, d, g2, by rw [g3]; rfl⟩
  · have : trace u = (utf8 "GET / HTTP/1.1\n\n").map Ev.byte ++ [] := by decide +kernel
    rw [this]; exact delivers_map _ _ _
  · rw [show utf8 "GET / HTTP/1.1\n\n" = b!"GET / HTTP/1.1\n\n" by decide +kernel]
    unfold HasCrLf; decide

end HttpIo
