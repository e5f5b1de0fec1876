import Verif.Spec.Interim
import Verif.Props.Client

/-! C71: interim responses. -/

namespace HttpIo
open Spec

section
variable [CaseMap] {c : Cfg} {ω α ρ σ τ : Type} [LawfulReader ρ] [ZeroReader ρ] [LawfulWriter σ] [LawfulReader τ] [ZeroReader τ]

theorem bare_headers : SendableHeaders [] ∧ LengthOk [] :=
  ⟨⟨by unfold SortedNames; simp, by simp, by simp⟩, by intro v hv; simp at hv⟩

/-- The response that a client obtains is the first one on the connection, whatever its status. So it is the final one if
the peer does not send an interim one. (What is missing: that interim responses are skipped.) -/
theorem C71_first_partial {P : σ → Prop} (hr : Reliable c P) (r : HttpRequest c τ) (hv : r.version = ⟨1, 1⟩) (d : Duplex ρ σ)
    (hP : P d.wr) (cs : List WCall)
    (hcs : (r.method = .Delete ∨ r.method = .Post ∨ r.method = .Put) ∨ written cs = [])
    (st : HttpStatus) (headers : HttpHeaders) (rest : List Ev) (hh : SendableHeaders headers.entries)
    (hl : LengthOk headers.entries) (hd : Delivers c (trace d.rd) (responseHead st.display headers.entries) rest) :
    ∃ o o' x d', r.serialize (BufWriter.new c d) = .ok o ∧ perform o cs = (true, o') ∧ o'.finish = (.ok x, d') ∧
      x.status.toCode = st.toCode ∧ x.headers = headers ∧ FramedBy headers.entries (framing x.body) ∧
      x.body.under = some (BufReader.new c d') ∧ trace d'.rd = rest := by
  obtain ⟨o, o', d1, h1, h2, h3, h4, _⟩ := C42_reliable hr r hv d hP cs hcs
  obtain ⟨x, d2, g1, g2, _, g3, g4, g5, g6⟩ := response_delivered c d1 st headers rest hh hl (by
    rw [Duplex.trace_eq, h4]; exact hd)
  exact ⟨o, o', x, d2, h1, h2, h3.trans g1, by rw [g2, C01_code_lossless], g3, g4, g5, g6⟩

/-- An interim response is taken for the response, and the final one for its body: the caller reads the bytes of the final
response, status line and headers included. -/
theorem C71_taken {P : σ → Prop} (hr : Reliable c P) (r : HttpRequest c τ) (hv : r.version = ⟨1, 1⟩) (d : Duplex ρ σ)
    (hP : P d.wr) (cs : List WCall)
    (hcs : (r.method = .Delete ∨ r.method = .Post ∨ r.method = .Put) ∨ written cs = [])
    (st : HttpStatus) (final : Bytes) (hd : trace d.rd = (afterInterim st final).map .byte) :
    ∃ o o' x d', r.serialize (BufWriter.new c d) = .ok o ∧ perform o cs = (true, o') ∧ o'.finish = (.ok x, d') ∧
      x.status.toCode = st.toCode ∧ x.headers = ⟨[]⟩ ∧ Yields x.body final := by
  have hdel : Delivers c (trace d.rd) (responseHead st.display (HttpHeaders.mk []).entries) (final.map .byte) := by
    rw [hd, afterInterim, List.map_append]; exact delivers_map c _ _
  obtain ⟨o, o', x, d2, h1, h2, h3, g2, g3, g4, g5, g6⟩ :=
    C71_first_partial hr r hv d hP cs hcs st ⟨[]⟩ _ bare_headers.1 bare_headers.2 hdel
  have hb : x.body = .ReadTilClose (BufReader.new c d2) := by
    cases hb : x.body with
    | Chunked i => rw [hb] at g4; simp only [framing] at g4; cases g4 with | chunked h => simp at h
    | Limited i => rw [hb] at g4; simp only [framing] at g4; cases g4 with | limited _ h => simp at h
    | ReadTilClose i =>
      rw [hb] at g5
      simp only [HttpBody.under, Option.some.injEq] at g5
      rw [g5]
  refine ⟨o, o', x, d2, h1, h2, h3, g2, g3, ?_⟩
  have hy := yields_of_trace (s := BufReader.new c d2) (by rw [BufReader.trace_new]; exact g6)
  intro sizes hp
  rw [hb, HttpBody.calls_tilClose]
  exact hy sizes hp

/-- A one-shot GET to a peer that sends an interim response first always fails. -/
theorem C71_get_fails {P : σ → Prop} (hr : Reliable c P) (N : StreamConnector ω α (Duplex ρ σ))
    (url : Url) (host : Bytes) (hs : AsciiText url.scheme) (hu : PlainHttp url ∨ SecureHttp url) (hhost : url.host = some host)
    (w w1 w2 : ω) (a : α) (d : Duplex ρ σ)
    (ha : N.toStreamAddr url w = (.ok a, w1)) (hc : N.connect a w1 = (.ok d, w2)) (hP : P d.wr)
    (st : HttpStatus) (hst : Interim st) (final : Bytes) (hd : trace d.rd = (afterInterim st final).map .byte) :
    ∃ st', clientGet c N (some url) w = (.err (.unexpectedStatus st'), w2) ∧ st'.toCode = st.toCode := by
  have hdel : Delivers c (trace d.rd) (responseHead st.display (HttpHeaders.mk []).entries) (final.map .byte) := by
    rw [hd, afterInterim, List.map_append]; exact delivers_map c _ _
  obtain ⟨st', h1, h2, _⟩ := (C43_get hr N url host hs hu hhost w w1 w2 a d ha hc hP st ⟨[]⟩ _ bare_headers.1 bare_headers.2
    hdel).2 (by intro h; have := hst.2.1; rw [h] at this; exact absurd this (by decide))
  exact ⟨st', h1, h2⟩

/-- Likewise a one-shot PUT, whose body has been sent. -/
theorem C71_put_fails {P : σ → Prop} (hr : Reliable c P) (N : StreamConnector ω α (Duplex ρ σ))
    (url : Url) (host : Bytes) (hs : AsciiText url.scheme) (hu : PlainHttp url ∨ SecureHttp url) (hhost : url.host = some host)
    (body : τ) (bs : Bytes) (t' : List Ev) (hbody : Delivers c (trace body) bs t') (hend : Ended c t')
    (w w1 w2 : ω) (a : α) (d : Duplex ρ σ)
    (ha : N.toStreamAddr url w = (.ok a, w1)) (hc : N.connect a w1 = (.ok d, w2)) (hP : P d.wr)
    (st : HttpStatus) (hst : Interim st) (final : Bytes) (hd : trace d.rd = (afterInterim st final).map .byte) :
    ∃ st', clientPut c N (some url) body w = (.err (.unexpectedStatus st'), w2) ∧ st'.toCode = st.toCode := by
  have hdel : Delivers c (trace d.rd) (responseHead st.display (HttpHeaders.mk []).entries) (final.map .byte) := by
    rw [hd, afterInterim, List.map_append]; exact delivers_map c _ _
  obtain ⟨st', h1, h2, _⟩ := (C43_put hr N url host hs hu hhost body bs t' hbody hend w w1 w2 a d ha hc hP st ⟨[]⟩ _
    bare_headers.1 bare_headers.2 hdel).2 (by intro h; have := hst.2.1; rw [h] at this; exact absurd this (by decide))
  exact ⟨st', h1, h2⟩

end

/-- The peer answers `100 Continue`, then `200 OK` with the body `hi`. -/
def continuing : Bytes := afterInterim .Continue (responseHead HttpStatus.OK.display [] ++ b!"hi")

theorem interim_continue : Interim .Continue := ⟨by decide, by decide, by decide⟩

example (c : Cfg) : let _ := asciiCase
    ∃ (o o' : OutgoingRequest c (Duplex Wire Sink)) (x : _) (d' : _), (HttpRequest.new c .Put b!"/x").serialize
      (BufWriter.new c ⟨⟨[.data continuing]⟩, ⟨[], 0, []⟩⟩) = .ok o ∧
    perform o [.write b!"ab"] = (true, o') ∧ o'.finish = (.ok x, d') ∧ x.status.toCode = 100 ∧ x.headers = ⟨[]⟩ ∧
    Yields x.body b!"HTTP/1.1 200 OK\r\n\r\nhi" := by
  intro _
  have := C71_taken (sink_reliable c) (HttpRequest.new c .Put b!"/x") rfl (⟨⟨[.data continuing]⟩, ⟨[], 0, []⟩⟩ : Duplex Wire Sink)
    (by simp) [.write b!"ab"] (.inl (.inr (.inr rfl))) .Continue (responseHead HttpStatus.OK.display [] ++ b!"hi")
    (by rw [Wire.trace_eq]; simp [WireEv.events, continuing])
  rwa [show responseHead HttpStatus.OK.display [] ++ b!"hi" = b!"HTTP/1.1 200 OK\r\n\r\nhi" by decide +kernel] at this

/-- False: the client passes over interim responses and returns the final one (RFC 7231 section 6.2). Witness: a GET to a
peer that answers `100 Continue`, then `200 OK` with the body `hi`. -/
theorem C71_skipped_false : let _ := asciiCase
    ¬ ∀ (c : Cfg) (P : Sink → Prop) (N : StreamConnector Unit Unit (Duplex Wire Sink)) (d : Duplex Wire Sink) (st : HttpStatus)
        (body : Bytes), Reliable c P → N.toStreamAddr sampleUrl () = (.ok (), ()) → N.connect () () = (.ok d, ()) → P d.wr →
      Interim st → trace d.rd = (afterInterim st (responseHead HttpStatus.OK.display [] ++ body)).map .byte →
      ∃ x, clientGet c N (some sampleUrl) () = (.ok x, ()) ∧ Yields x body := by
  intro _ h
  have hu : SecureHttp sampleUrl := by
    unfold SecureHttp
    rw [utf8_https]
    exact sameText_refl _
  have hplan : ∀ a ∈ [WPlan.accept 2], (∃ n, a = .accept (n + 1)) ∨ ∃ e, a = .fault e ∧ Retried ⟨false⟩ e := by
    intro a ha; simp only [List.mem_cons, List.not_mem_nil, or_false] at ha; exact .inl ⟨1, ha⟩
  have htr : trace (Wire.mk [.data continuing]) =
      (afterInterim .Continue (responseHead HttpStatus.OK.display [] ++ b!"hi")).map .byte := by
    rw [Wire.trace_eq]; simp [WireEv.events, continuing]
  obtain ⟨x, h1, _⟩ := h ⟨false⟩ _ (oneServer continuing) _ .Continue b!"hi" (sink_reliable _) rfl rfl hplan interim_continue htr
  obtain ⟨st', h2, _⟩ := C71_get_fails (sink_reliable ⟨false⟩) (oneServer continuing) sampleUrl b!"h"
    (by rw [← isAscii_iff]; decide) (.inr hu) rfl () () () () _ rfl rfl hplan .Continue interim_continue _ htr
  rw [h1] at h2
  simp at h2

end HttpIo
