import Verif.Props.Allow
import Verif.Props.Accept

/-! C140: whom an error status blames. -/

namespace HttpIo
open Spec

section
variable [CaseMap] {c : Cfg} {η σ ρ ε : Type} [LawfulReader σ] [ZeroReader σ] [LawfulWriter σ] [LawfulReader ρ] [ZeroReader ρ]

omit [ZeroReader σ] [LawfulWriter σ] in
theorem request_sorted {s s' : σ} {r : HttpRequest c σ} (h : HttpRequest.deserialize c s = (.ok r, s')) :
    SortedNames r.headers.entries := by
  unfold HttpRequest.deserialize at h
  rcases h1 : parseHead c parseRequestLine s with ⟨⟨⟨m, uri, v⟩, hs, enc, n⟩ | e | _, s1⟩ <;> rw [h1] at h
  · simp only [Prod.mk.injEq, Res.ok.injEq] at h
    obtain ⟨rfl, rfl⟩ := h
    exact (parseHead_framing h1).1
  · simp at h
  · simp at h

/-- False, of every request that is not well formed, whatever is wrong with it (also of those whose method is not known): it is
answered with 500, which says that the server is at fault, or not at all, if it panics the parser. -/
theorem C140_malformed_false {P : σ → Prop} (hra : ReadsApart σ) (hrel : Reliable c P) (hkept : ∀ s n, P s → P (read s n).2)
    (h : Handler c η σ ρ ε) (ho : OnlyReads h) (errText : Err → Bytes) (s : σ) (self : η) (hs : P s)
    (hbad : ∀ line hist m target major minor t', RequestLine line m target major minor → ¬ HeadOf c (trace s) line hist t')
    (hf : ∀ e, .fault e ∈ trace s → e ≠ .lengthRequired) :
    ∃ d, (h.serveOne errText (.ok s) self).2.1 = some d ∧ (h.serveOne errText (.ok s) self).2.2 = self ∧
      ((CutRequest c (trace s) ∧ sent d = sent s) ∨
        ∃ text, ¬ CutRequest c (trace s) ∧ sent d = sent s ++ utf8 "HTTP/1.1 500 Internal Server Error\r\n\r\n" ++ text) := by
  rcases hp : HttpRequest.deserialize c (BufReader.new c s) with ⟨r | e | _, s1⟩
  · obtain ⟨line, hist, h1, h2, _⟩ := C69_request_sound c _ _ r hp
    rw [BufReader.trace_new] at h2
    exact absurd h2 (hbad _ _ _ _ _ _ _ h1)
  · obtain ⟨_, h2, d, h3, h4⟩ := C51_unparsable_partial hra hrel hkept h ho errText s self hs e (by rw [hp]) hf
    exact ⟨d, h3, h2, .inr ⟨errText e, fun hc => by
      have := (C11_request_panics_iff c (BufReader.new c s)).2 (by rw [BufReader.trace_new]; exact hc)
      rw [hp] at this; simp at this, by
      rw [h4, show responseHead (utf8 "500 Internal Server Error") [] = utf8 "HTTP/1.1 500 Internal Server Error\r\n\r\n" by
        decide +kernel]⟩⟩
  · have hcut := (C11_request_panics_iff c (BufReader.new c s)).1 (by rw [hp])
    rw [BufReader.trace_new] at hcut
    have hq := C52_handler_quiet hra h ho errText s self
    have hi := serveOneInner_panic h errText self hp
    rw [hi] at hq
    refine ⟨s1.inner, ?_, ?_, .inl ⟨hcut, hq⟩⟩ <;> unfold Handler.serveOne <;> dsimp only <;> rw [hi]

/-- Full statement: a request that the server refuses without asking the handler is answered with a status that begins with 4
(or, if its method is not known, with 501). What holds: well-formed requests without the length they need are, and those whose
method the handler leaves at its default. Missing: those that are not well formed, see `C140_malformed_false`. -/
theorem C140_refused_partial {P : σ → Prop} (hra : ReadsApart σ) (hrel : Reliable c P) (hkept : ∀ s n, P s → P (read s n).2)
    (h : Handler c η σ ρ ε) (ho : OnlyReads h) (errText : Err → Bytes) (s : σ) (self : η) (hs : P s)
    (line : Bytes) (hist : List (Bytes × Bytes)) (m : HttpMethod) (target : Bytes) (major minor : Nat) (t' : List Ev)
    (hl : RequestLine line m target major minor) (hh : HeadOf c (trace s) line hist t')
    (href : ((m = .Put ∨ m = .Post) ∧
        (∀ v, LastWith (fun k => CaseMap.lower k = utf8 "transfer-encoding") hist v → v ≠ utf8 "chunked") ∧
        ∀ kv ∈ hist, CaseMap.lower kv.1 ≠ utf8 "content-length") ∨
      handled h m = handled (Handler.defaults c η σ ρ ε h.into) m) :
    ∃ d rest, (h.serveOne errText (.ok s) self).1 = .ok () ∧ (h.serveOne errText (.ok s) self).2.1 = some d ∧
      sent d = sent s ++ utf8 "HTTP/1.1 4" ++ rest := by
  obtain ⟨r, s1, f1, f2, f3, f4, f5, f6⟩ := C69_request_complete c (BufReader.new c s) line m target ⟨major, minor⟩ hist t' hl
    (by rwa [BufReader.trace_new])
  have e1 : responseHead (utf8 "411 Length Required") [] = utf8 "HTTP/1.1 4" ++ utf8 "11 Length Required\r\n\r\n" := by decide +kernel
  have e2 : utf8 "HTTP/1.1 405 Method Not Allowed\r\n\r\n" = utf8 "HTTP/1.1 4" ++ utf8 "05 Method Not Allowed\r\n\r\n" := by
    decide +kernel
  have hfr := (C20_request c _ _ r f1).1
  have h411 : ¬ Acceptable r → ∃ d rest, (h.serveOne errText (.ok s) self).1 = .ok () ∧ (h.serveOne errText (.ok s) self).2.1 = some d ∧
      sent d = sent s ++ utf8 "HTTP/1.1 4" ++ rest := by
    intro ha
    have hna : (r.method = .Put ∨ r.method = .Post) ∧ framing r.body = .tilClose := by
      unfold Acceptable at ha
      exact ⟨Classical.byContradiction fun hx => ha fun h => absurd h hx, Classical.byContradiction fun hx => ha fun _ => hx⟩
    rw [hna.2] at hfr
    cases hfr with
    | tilClose g1 g2 =>
      obtain ⟨k1, _, d, k2, k3⟩ := C51_length_required hra hrel hkept h ho errText s self hs r (by rw [f1]) hna.1 g1 g2
      exact ⟨d, utf8 "11 Length Required\r\n\r\n" ++ utf8 "length required", k1, k2, by rw [k3, e1]; simp only [List.append_assoc]⟩
  by_cases ha : Acceptable r
  · have hdef : handled h r.method = handled (Handler.defaults c η σ ρ ε h.into) r.method := by
      rw [f3]
      rcases href with ⟨hm, h1, h2⟩ | href
      · exfalso
        have hsort := request_sorted f1
        refine ha (by rw [f3]; exact hm) ?_
        have l1 : CaseMap.lower (utf8 "transfer-encoding") = utf8 "transfer-encoding" := by
          rw [CaseMap.lower_ascii _ (by decide +kernel)]; decide +kernel
        have l2 : CaseMap.lower (utf8 "content-length") = utf8 "content-length" := by
          rw [CaseMap.lower_ascii _ (by decide +kernel)]; decide +kernel
        have u1 : utf8 "transfer-encoding" = b!"transfer-encoding" := by decide +kernel
        have u2 : utf8 "content-length" = b!"content-length" := by decide +kernel
        have u3 : utf8 "chunked" = b!"chunked" := by decide +kernel
        have a1 := (f6 (utf8 "transfer-encoding")).1
        have a2 := (f6 (utf8 "content-length")).2.2 (by rw [l2]; exact h2)
        unfold HttpHeaders.get at a1 a2
        rw [l1] at a1
        rw [l2] at a2
        have n1 : (b!"transfer-encoding", b!"chunked") ∉ r.headers.entries := fun hx => by
          rw [← u1] at hx
          exact h1 _ ((a1 _).1 ((mapGet_iff hsort _ _).2 hx)) u3.symm
        have n2 : ∀ v, (b!"content-length", v) ∉ r.headers.entries := fun v hx => by
          rw [← u2] at hx
          rw [(mapGet_iff hsort _ _).2 hx] at a2
          simp at a2
        exact framedBy_unique hsort hfr (.tilClose n1 n2)
      · exact href
    obtain ⟨d, k1, k2, k3⟩ := C133_default_false hra hrel hkept h ho errText s self hs r s1 f1 ha hdef
    exact ⟨d, utf8 "05 Method Not Allowed\r\n\r\n" ++ utf8 (refusal r.method), k1, k2, by rw [k3, e2]; simp only [List.append_assoc]⟩
  · exact h411 ha

end

/-- Witness for `C140_malformed_false`: a method that is not known, and a version that is not one. The parser fails, so the
request is not well formed; and the answers. -/
example (c : Cfg) : let _ := asciiCase
    ((getOnly c).serveOne (fun _ => b!"?") (.ok (requestConn b!"BREW / HTTP/1.1\r\n\r\n")) ()).2.1.map sent =
      some b!"HTTP/1.1 500 Internal Server Error\r\n\r\n?" ∧
    ((getOnly c).serveOne (fun _ => b!"?") (.ok (requestConn b!"GET / HTTP\r\n\r\n")) ()).2.1.map sent =
      some b!"HTTP/1.1 500 Internal Server Error\r\n\r\n?" ∧
    ∀ line hist m target major minor t', RequestLine line m target major minor →
      ¬ HeadOf c (trace (requestConn b!"BREW / HTTP/1.1\r\n\r\n")) line hist t' := by
  intro _
  refine ⟨?_, ?_, fun line hist m target major minor t' h1 h2 => ?_⟩
  · rcases c with ⟨_ | _⟩ <;> decide +kernel
  · rcases c with ⟨_ | _⟩ <;> decide +kernel
  · obtain ⟨r, s', h, _⟩ := C69_request_complete c (requestConn b!"BREW / HTTP/1.1\r\n\r\n") line m target ⟨major, minor⟩ hist t' h1 h2
    have : (match (HttpRequest.deserialize c (requestConn b!"BREW / HTTP/1.1\r\n\r\n")).1 with
        | .ok _ => true
        | _ => false) = false := by
      rcases c with ⟨_ | _⟩ <;> decide +kernel
    rw [h] at this
    simp at this

/-- Witness for `C140_refused_partial`: a POST without a length, and a TRACE that is not implemented. -/
example (c : Cfg) : let _ := asciiCase
    ((getOnly c).serveOne (fun _ => b!"?") (.ok (requestConn b!"POST / HTTP/1.1\r\nhost: h\r\n\r\n")) ()).2.1.map sent =
      some b!"HTTP/1.1 411 Length Required\r\n\r\nlength required" ∧
    (∃ d rest, ((getOnly c).serveOne (fun _ => b!"?") (.ok (requestConn b!"TRACE / HTTP/1.1\r\nhost: h\r\n\r\n")) ()).2.1 = some d ∧
      sent d = utf8 "HTTP/1.1 4" ++ rest) := by
  intro _
  refine ⟨?_, ?_⟩
  · rcases c with ⟨_ | _⟩ <;> decide +kernel
  · have key : (match (HttpRequest.deserialize c (requestConn b!"TRACE / HTTP/1.1\r\nhost: h\r\n\r\n")).1 with
        | .ok r => r.method == .Trace
        | _ => false) = true := by
      rcases c with ⟨_ | _⟩ <;> decide +kernel
    rcases hd : HttpRequest.deserialize c (requestConn b!"TRACE / HTTP/1.1\r\nhost: h\r\n\r\n") with ⟨r | e | _, s1⟩ <;> rw [hd] at key
    · obtain ⟨line, hist, h1, h2, _⟩ := C69_request_sound c _ _ r hd
      replace key : r.method = .Trace := by simpa using key
      rw [key] at h1
      obtain ⟨d, rest, _, h3, h4⟩ := C140_refused_partial duplex_readsApart (duplex_reliable (σ := Sink) (sink_reliable c))
        (fun _ _ h => h) (getOnly c) ⟨fun _ _ _ => ⟨[], rfl⟩, fun _ _ _ => ⟨[], rfl⟩⟩ (fun _ => b!"?") _ () (by simp [requestConn])
        line hist .Trace r.uri _ _ _ h1 h2 (.inr rfl)
      exact ⟨d, rest, h3, h4⟩
    · simp at key
    · simp at key

end HttpIo
