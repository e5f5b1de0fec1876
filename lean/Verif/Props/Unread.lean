import Verif.Props.Files
import Verif.Lemmas.Pipes
import Verif.Spec.Unread

/-! C103: what is left of a request in the connection when the server drops it. -/

namespace HttpIo
open Spec

section
variable [CaseMap] {c : Cfg} {η ω σ ρ ε : Type} [LawfulReader ω] [ZeroReader ω] [LawfulWriter σ] [LawfulReader ρ] [ZeroReader ρ]

theorem respond_rd (r : ServerResponse c ρ) (s : Duplex ω σ) : (respond c r s).2.2.rd = s.rd := by
  have hk : Kept fun d : Duplex ω σ => d.rd = s.rd := ⟨fun _ _ h => h, fun _ h => h, fun _ _ _ h => h⟩
  unfold respond
  have h1 : (r.serialize s).2.rd = s.rd := hk.writePieces (P := fun d : Duplex ω σ => d.rd = s.rd) rfl
  rcases hs : r.serialize s with ⟨e | _, s1⟩ <;> rw [hs] at h1 <;> dsimp only
  · exact h1
  · have h2 := hk.copy (c := c) (r := r.body) (s := s1) (n := 0) h1
    rcases hc : copy c r.body s1 0 with ⟨_ | _, b, s2⟩ <;> rw [hc] at h2 <;> exact h2

/-- Answering reads nothing more. -/
theorem serveOne_rd (h : Handler c η (Duplex ω σ) ρ ε) (errText : Err → Bytes) (s : Duplex ω σ) (self : η) :
    ∃ d, (h.serveOne errText (.ok s) self).2.1 = some d ∧ d.rd = (h.serveOneInner errText s self).2.1.rd := by
  unfold Handler.serveOne
  dsimp only
  rcases h.serveOneInner errText s self with ⟨r | r | _, s1, self1⟩ <;> dsimp only
  · have := respond_rd r s1
    rcases hr : respond c r s1 with ⟨_ | _, b, s2⟩ <;> rw [hr] at this <;> exact ⟨_, rfl, this⟩
  · have := respond_rd r s1
    rcases hr : respond c r s1 with ⟨_ | _, b, s2⟩ <;> rw [hr] at this <;> exact ⟨_, rfl, this⟩
  · exact ⟨_, rfl, rfl⟩

theorem unread_of (h : Handler c η (Duplex ω σ) ρ ε) (errText : Err → Bytes) (s : Duplex ω σ) (self : η) (bs : Bytes)
    (idle : List Ev) (hidle : ∀ b t, idle ≠ .byte b :: t) (x : BufReader c (Duplex ω σ))
    (hx : (h.serveOneInner errText s self).2.1 = x.inner) (ht : trace x = bs.map .byte ++ idle) :
    ∃ left, left <:+ bs ∧ (c.std = false → left = bs) ∧ LeftUnread (h.serveOne errText (.ok s) self).2.1 left idle := by
  obtain ⟨d, h1, h2⟩ := serveOne_rd h errText s self
  obtain ⟨l, k1, k2, k3⟩ := bufReader_left x bs idle hidle ht
  exact ⟨l, k1, k3, d, h1, by rw [h2, hx]; exact k2⟩

/-- A request without a body, for any method but PUT and POST: nothing of it is left. -/
theorem C103_bodiless (h : Handler c η (Duplex ω σ) ρ ε) (errText : Err → Bytes) (s : Duplex ω σ) (self : η)
    (m : HttpMethod) (target : Bytes) (headers : HttpHeaders) (idle : List Ev) (hm : ¬ Hands m) (ht : SendableTarget target)
    (hh : SendableHeaders headers.entries) (hl : LengthOk headers.entries) (hidle : ∀ b t, idle ≠ .byte b :: t)
    (hd : trace s = (requestHead m target headers.entries).map .byte ++ idle) :
    LeftUnread (h.serveOne errText (.ok s) self).2.1 [] idle := by
  obtain ⟨rq, s1, f1, f2, f3, _, _, f4, f5, f6⟩ := C18_roundtrip c (BufReader.new c s) m target headers idle ht hh hl
    (by rw [BufReader.trace_new, hd]; exact delivers_map c _ _)
  have hacc : Acceptable rq := by
    intro hx; rw [f2] at hx; exact absurd (by rcases hx with h | h; exact .inr h; exact .inl h) hm
  obtain ⟨l, k1, _, k3⟩ := unread_of h errText s self [] idle hidle s1 (by
    rw [serveOneInner_handled h errText self f1 hacc, f2]
    dsimp only
    have hrel : rq.body.released s1 = s1.inner := by unfold HttpBody.released; rw [f5]; rfl
    unfold Hands at hm
    cases m <;> first | exact hrel | simp at hm) (by simpa using f6)
  rw [List.suffix_nil.1 k1] at k3
  exact k3

theorem handled_rest {h : Handler c η (Duplex ω σ) ρ ε} (hr : ReadsToEnd h) {m : HttpMethod} (hm : Hands m) (uri : Bytes)
    (body : HttpBody c (BufReader c (Duplex ω σ))) (self : η) (bs : Bytes) (hy : Yields body bs) :
    ∃ sizes, Positive sizes ∧ .ok [] ∈ (calls body sizes).1 ∧ (handled h m uri body self).2.1 = (calls body sizes).2 := by
  obtain ⟨h1, h2⟩ := hr uri body self bs hy
  rcases hm with rfl | rfl
  · exact h2
  · exact h1

/-- PUT or POST with a content length and that many bytes of body, and a handler that reads to the end: nothing of the
request is left. -/
theorem C103_length (h : Handler c η (Duplex ω σ) ρ ε) (hr : ReadsToEnd h) (errText : Err → Bytes) (s : Duplex ω σ) (self : η)
    (m : HttpMethod) (target : Bytes) (headers : HttpHeaders) (body : Bytes) (idle : List Ev) (hm : Hands m)
    (ht : SendableTarget target) (hh : SendableHeaders headers.entries) (hl : LengthOk headers.entries)
    (hf : FramedBy headers.entries (.limited body.length)) (hidle : ∀ b t, idle ≠ .byte b :: t)
    (hd : trace s = (requestHead m target headers.entries ++ body).map .byte ++ idle) :
    LeftUnread (h.serveOne errText (.ok s) self).2.1 [] idle := by
  obtain ⟨rq, s1, f1, f2, f3, _, _, f4, f5, f6⟩ := C18_roundtrip c (BufReader.new c s) m target headers (body.map .byte ++ idle)
    ht hh hl (by rw [BufReader.trace_new, hd, List.map_append, List.append_assoc]; exact delivers_map c _ _)
  have hfr := framedBy_unique hh.1 f4 hf
  have hacc : Acceptable rq := by intro _ hx; rw [hx] at hfr; simp at hfr
  obtain ⟨_, enc, len, hnew⟩ := request_under f1
  obtain ⟨henc, hbody⟩ : enc ≠ some b!"chunked" ∧ rq.body = HttpBody.new c enc (some body.length) s1 := by
    rw [hnew] at hfr
    unfold HttpBody.new at hfr
    by_cases henc : enc = some b!"chunked"
    · rw [if_pos henc] at hfr; simp [framing] at hfr
    · rw [if_neg henc] at hfr
      cases len with
      | none => simp [framing] at hfr
      | some n =>
        simp only [framing, Framing.limited.injEq] at hfr
        exact ⟨henc, by rw [hnew, hfr]⟩
  have hy := C29_yields c enc henc body.length s1 body idle f6 (.inr (Nat.le_refl _))
  rw [List.take_length, ← hbody] at hy
  obtain ⟨sizes, w1, w2, w3⟩ := handled_rest hr hm rq.uri rq.body self body hy
  obtain ⟨_, _, s3, u1, u2, _⟩ := C29_exact c enc henc body.length s1 sizes w1
  rw [← hbody] at u1 u2
  obtain ⟨v1, v2, _⟩ := calls_seen rq.body (sizes := sizes) w1
  rw [v2 w2, List.append_nil, trace_of_yields hy] at v1
  rw [f6, ← v1] at u2
  obtain ⟨l, k1, _, k3⟩ := unread_of h errText s self [] idle hidle s3 (by
    rw [serveOneInner_handled h errText self f1 hacc]
    dsimp only
    rw [f2, w3]; unfold HttpBody.released; rw [u1]; rfl) (by simpa using (List.append_cancel_left u2).symm)
  rw [List.suffix_nil.1 k1] at k3
  exact k3

/-- PUT or POST with chunks, and a handler that reads to the end: the two bytes after the last size line can be left,
and without std they always are. -/
theorem C103_chunked_partial (h : Handler c η (Duplex ω σ) ρ ε) (hr : ReadsToEnd h) (errText : Err → Bytes) (s : Duplex ω σ)
    (self : η) (m : HttpMethod) (target : Bytes) (headers : HttpHeaders) (chs : List Chunk) (last : Bytes) (idle : List Ev)
    (hm : Hands m) (ht : SendableTarget target) (hh : SendableHeaders headers.entries) (hl : LengthOk headers.entries)
    (hte : (utf8 "transfer-encoding", utf8 "chunked") ∈ headers.entries) (hs : ∀ ch ∈ chs, ch.Sized)
    (hlast : UnsignedText 16 last 0) (hidle : ∀ b t, idle ≠ .byte b :: t)
    (hd : trace s = (requestHead m target headers.entries ++ chunkedBytes chs last ++ [13, 10]).map .byte ++ idle) :
    ∃ left, left <:+ [13, 10] ∧ (c.std = false → left = [13, 10]) ∧
      LeftUnread (h.serveOne errText (.ok s) self).2.1 left idle := by
  have e1 : utf8 "transfer-encoding" = b!"transfer-encoding" := by decide +kernel
  have e2 : utf8 "chunked" = b!"chunked" := by decide +kernel
  rw [e1, e2] at hte
  obtain ⟨rq, s1, f1, f2, f3, _, _, f4, f5, f6⟩ := C18_roundtrip c (BufReader.new c s) m target headers
    ((chunkedBytes chs last).map .byte ++ (([13, 10] : Bytes).map .byte ++ idle)) ht hh hl
    (by rw [BufReader.trace_new, hd, List.map_append, List.map_append, List.append_assoc, List.append_assoc]
        exact delivers_map c _ _)
  have hfr := framedBy_unique hh.1 f4 (.chunked hte)
  have hacc : Acceptable rq := by intro _ hx; rw [hx] at hfr; simp at hfr
  obtain ⟨_, enc, len, hnew⟩ := request_under f1
  have hbody : rq.body = HttpBody.new c (some b!"chunked") len s1 := by
    rw [hnew] at hfr ⊢
    unfold HttpBody.new at hfr ⊢
    by_cases henc : enc = some b!"chunked"
    · rw [henc]
    · rw [if_neg henc] at hfr
      cases len <;> simp [framing] at hfr
  obtain ⟨d1, d2⟩ := decode_sized c len s1 chs last (([13, 10] : Bytes).map .byte ++ idle) hs hlast
    (by rw [f6]; exact deliversChunked_map c chs last _)
  rw [← hbody] at d1 d2
  obtain ⟨sizes, w1, w2, w3⟩ := handled_rest hr hm rq.uri rq.body self _ d1
  obtain ⟨s3, u1, u2⟩ := d2 sizes w1 w2
  exact unread_of h errText s self [13, 10] idle hidle s3 (by
    rw [serveOneInner_handled h errText self f1 hacc]
    dsimp only
    rw [f2, w3]; unfold HttpBody.released; rw [u1]; rfl) u2

/-- And a handler that does not read the body leaves, without std, all of it. -/
theorem C103_ignored (h : Handler c η (Duplex ω σ) ρ ε) (errText : Err → Bytes) (s : Duplex ω σ) (self : η) (m : HttpMethod)
    (target : Bytes) (headers : HttpHeaders) (body : Bytes) (idle : List Ev) (ht : SendableTarget target)
    (hh : SendableHeaders headers.entries) (hl : LengthOk headers.entries) (hidle : ∀ b t, idle ≠ .byte b :: t)
    (hput : ∀ uri body self, (h.put uri body self).2.1 = body) (hpost : ∀ uri body self, (h.post uri body self).2.1 = body)
    (hd : trace s = (requestHead m target headers.entries ++ body).map .byte ++ idle) :
    ∃ left, left <:+ body ∧ (c.std = false → left = body) ∧
      LeftUnread (h.serveOne errText (.ok s) self).2.1 left idle := by
  obtain ⟨rq, s1, f1, f2, f3, _, _, f4, f5, f6⟩ := C18_roundtrip c (BufReader.new c s) m target headers (body.map .byte ++ idle)
    ht hh hl (by rw [BufReader.trace_new, hd, List.map_append, List.append_assoc]; exact delivers_map c _ _)
  have hrel : rq.body.released s1 = s1.inner := by unfold HttpBody.released; rw [f5]; rfl
  refine unread_of h errText s self body idle hidle s1 ?_ f6
  by_cases hacc : Acceptable rq
  · rw [serveOneInner_handled h errText self f1 hacc]
    dsimp only
    rw [← hrel]
    unfold handled
    split <;> first | rfl | (rw [hput]) | (rw [hpost])
  · rw [serveOneInner_refused h errText self f1 hacc]

end

/-- A handler that reads what it is sent, and answers 200. -/
def drain (c : Cfg) (σ : Type) [LawfulReader σ] [ZeroReader σ] : Handler c Unit σ Wire Err :=
  { Handler.defaults c Unit σ Wire Err (ServerResponse.ofError c fun _ => []) with
    put := fun _ body self => (.ok (HttpResponse.new c .OK (.B ⟨[]⟩)), (copy c body (Sink.mk [] 0 []) 0).2.1, self)
    post := fun _ body self => (.ok (HttpResponse.new c .OK (.B ⟨[]⟩)), (copy c body (Sink.mk [] 0 []) 0).2.1, self) }

theorem drain_readsToEnd (c : Cfg) (σ : Type) [LawfulReader σ] [ZeroReader σ] : ReadsToEnd (drain c σ) := by
  intro uri body self bs hy
  obtain ⟨k, b, f, h1, _⟩ := (sink_reliable c).copy_ok (r := body) (s := Sink.mk [] 0 []) (n := 0) (by simp)
    (bs := bs) (t' := []) (by rw [trace_of_yields hy]; simpa using delivers_map c bs []) (by simp [Ended])
  obtain ⟨sizes, g1, g2, g3⟩ := copy_calls c body (Sink.mk [] 0 []) 0
  have := g3 k (by rw [h1])
  exact ⟨⟨sizes, g2, this, g1⟩, sizes, g2, this, g1⟩

/-- The property is false, with and without std: a handler that reads the body to its end, a PUT of one byte as the
crate's client sends it, and the connection is dropped with two bytes of the request unread. -/
theorem C103_unread_false : let _ := asciiCase
    ∀ c : Cfg, ∃ (s : Duplex Wire Sink) (headers : HttpHeaders) (chs : List Chunk),
      headers.entries = standardHeaders .Put b!"h" ∧ ChunksFor chs [b!"x"] ∧
      trace s = (requestHead .Put b!"/" headers.entries ++ chunkedBytes chs (utf8 "0") ++ [13, 10]).map .byte ∧
      ReadsToEnd (drain c (Duplex Wire Sink)) ∧
      LeftUnread ((drain c (Duplex Wire Sink)).serveOne (fun _ => []) (.ok s) ()).2.1 [13, 10] [] := by
  intro _ c
  refine ⟨⟨⟨[.data b!"PUT / HTTP/1.1\r\naccept: */*\r\nhost: h\r\ntransfer-encoding: chunked\r\nuser-agent: http_io\r\n\r\n1\r\nx\r\n0\r\n",
      .data b!"\r\n"]⟩, Sink.mk [] 0 []⟩, ⟨standardHeaders .Put b!"h"⟩, [⟨b!"1", b!"x", [13, 10]⟩], rfl, ?_, by decide +kernel,
    drain_readsToEnd c _, ?_⟩
  · refine ⟨fun ch hch => ?_, by decide⟩
    simp only [List.mem_singleton] at hch
    subst hch
    exact ⟨⟨((fromStrRadix_iff (max := 10) (by omega) (by omega)).1 (by decide)).1, by decide, by decide, rfl⟩, rfl⟩
  · have key : ∀ b : Bool, (match ((drain ⟨b⟩ (Duplex Wire Sink)).serveOne (fun _ => []) (.ok ⟨⟨[.data b!"PUT / HTTP/1.1\r\naccept: */*\r\nhost: h\r\ntransfer-encoding: chunked\r\nuser-agent: http_io\r\n\r\n1\r\nx\r\n0\r\n",
      .data b!"\r\n"]⟩, Sink.mk [] 0 []⟩) ()).2.1 with
        | some d => decide (trace d.rd = ([13, 10] : Bytes).map .byte)
        | none => false) = true := by decide +kernel
    have key := key c.std
    split at key
    · rename_i d hd
      exact ⟨d, hd, by simpa using key⟩
    · simp at key

/-- Witnesses for the theorems above: the requests, and the two handlers. -/
example : let _ := asciiCase
    ¬ Hands .Get ∧ Hands .Put ∧ SendableTarget b!"/" ∧ SendableHeaders [(b!"content-length", b!"3")] ∧
    LengthOk [(b!"content-length", b!"3")] ∧ FramedBy [(b!"content-length", b!"3")] (.limited b!"abc".length) ∧
    (∀ b t, [Ev.fault (.io .interrupted)] ≠ .byte b :: t) ∧
    ReadsToEnd (drain ⟨true⟩ (Duplex Wire Sink)) ∧
    (∀ uri body self, ((Handler.defaults ⟨true⟩ Unit (Duplex Wire Sink) Wire Err
      (ServerResponse.ofError ⟨true⟩ fun _ => [])).put uri body self).2.1 = body) := by
  intro _
  have hl : LengthText b!"3" 3 := lengthText_iff.1 (by decide +kernel)
  refine ⟨by unfold Hands; simp, by unfold Hands; simp,
    ⟨by decide, isText_ascii (by decide), by decide, by decide, by unfold HasCrLf; decide⟩,
    ⟨by unfold SortedNames; decide, by decide, ?_⟩, ?_, .limited (by decide) (by simp) hl, by simp,
    drain_readsToEnd _ _, fun _ _ _ => rfl⟩
  · intro kv hkv
    simp only [List.mem_singleton] at hkv
    subst hkv
    exact ⟨isText_ascii (by decide), by decide, by unfold HasCrLf; decide, by rw [← startsBlank_iff]; decide,
        isText_ascii (by decide), by unfold HasCrLf; decide⟩
  · intro v hv
    simp only [List.mem_singleton, Prod.mk.injEq] at hv
    exact ⟨3, by rw [hv.2]; exact hl⟩

end HttpIo
