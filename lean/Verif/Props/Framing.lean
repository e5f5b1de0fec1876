import Verif.Props.EndToEnd

/-! C72: what the headers of a sent message announce and what is sent after them. -/

namespace HttpIo
open Spec

/-- Decoding never gives as many bytes as there were. -/
theorem chunkT_short {c : Cfg} (after : List Ev) (m : Option Nat) (t : List Ev) (d : Bytes)
    (h : chunkT c after m t = d.map .byte) : d.length < t.length := by
  fun_induction chunkT c after m t generalizing d with
  | case1 => cases d <;> simp at h
  | case2 => cases d <;> simp at h
  | case3 after t l t' he _ =>
    have := expectNextT_lt he
    have : d = [] := by cases d <;> simp at h ⊢
    rw [this]; simp only [List.length_nil]; omega
  | case4 after t l t' he size hs h0 ih =>
    have := expectNextT_lt he
    have := ih d h
    omega
  | case5 => cases d <;> simp at h
  | case6 after t _ t' he ih =>
    have := readExactT_lt (by omega) he
    have := ih d h
    omega
  | case7 => cases d <;> simp at h
  | case8 after k b t ih =>
    cases d with
    | nil => simp at h
    | cons x d =>
      simp only [List.map_cons, List.cons.injEq] at h
      have := ih d h.2
      simp only [List.length_cons]; omega
  | case9 => cases d <;> simp at h

section
variable {c : Cfg} {ρ : Type} [LawfulReader ρ] [ZeroReader ρ]

/-- What a body is to deliver, by its kind. -/
theorem framed_trace (enc : Option Bytes) (len : Option Nat) (u : ρ) :
    (framing (HttpBody.new c enc len u) = .chunked → trace (HttpBody.new c enc len u) = chunkT c [] none (trace u) ∧
      enc = some b!"chunked") ∧
    (∀ n, framing (HttpBody.new c enc len u) = .limited n → trace (HttpBody.new c enc len u) = limitTrace n (trace u)) ∧
    (framing (HttpBody.new c enc len u) = .tilClose → trace (HttpBody.new c enc len u) = trace u) := by
  by_cases he : enc = some b!"chunked"
  · subst he
    rw [chunked_new]
    refine ⟨fun _ => ⟨by rw [HttpBody.trace_chunked, HttpChunkedBody.trace_new], rfl⟩, fun n h => ?_, fun h => ?_⟩ <;> simp [framing] at h
  · unfold HttpBody.new
    rw [if_neg he]
    cases len with
    | none => refine ⟨fun h => ?_, fun n h => ?_, fun _ => rfl⟩ <;> simp [framing] at h
    | some k =>
      refine ⟨fun h => ?_, fun n h => ?_, fun h => ?_⟩
      · simp [framing] at h
      · simp only [framing, Framing.limited.injEq] at h
        subst h; rfl
      · simp [framing] at h

end

theorem limitTrace_all {n : Nat} {bs : Bytes} : limitTrace n (bs.map .byte) = (bs.take n).map .byte := limitTrace_bytes _ _

theorem map_byte_inj {a b : Bytes} (h : a.map Ev.byte = b.map .byte) : a = b := by
  have := congrArg bytesOf h
  have e : ∀ x : Bytes, bytesOf (x.map .byte) = x := by
    intro x; induction x with
    | nil => rfl
    | cons y x ih => simp [bytesOf, ih]
  rwa [e, e] at this

section
variable [CaseMap] {c c' : Cfg}

omit [CaseMap] in
theorem FramedBy.cases {entries : List (Bytes × Bytes)} (hl : LengthOk entries) :
    (b!"transfer-encoding", b!"chunked") ∈ entries ∨
    (b!"transfer-encoding", b!"chunked") ∉ entries ∧
      ((∃ v n, (b!"content-length", v) ∈ entries ∧ LengthText v n) ∨ ∀ v, (b!"content-length", v) ∉ entries) := by
  by_cases h1 : (b!"transfer-encoding", b!"chunked") ∈ entries
  · exact .inl h1
  · by_cases h2 : ∃ v, (b!"content-length", v) ∈ entries
    · obtain ⟨v, hv⟩ := h2
      obtain ⟨n, hn⟩ := hl v hv
      exact .inr ⟨h1, .inl ⟨v, n, hv, hn⟩⟩
    · exact .inr ⟨h1, .inr fun v hv => h2 ⟨v, hv⟩⟩

/-- What is on the wire after a request was sent, and how it is parsed. -/
theorem request_parsed {ρ σ τ : Type} [LawfulWriter σ] [LawfulReader τ] [ZeroReader τ] (r : HttpRequest c ρ) (s s' : σ)
    (hv : r.version = ⟨1, 1⟩) (ht : SendableTarget r.uri) (hh : SendableHeaders r.headers.entries)
    (hl : LengthOk r.headers.entries) (o o' : OutgoingRequest c σ) (cs : List WCall) (hs : sent s = [])
    (hlen : ∀ buf ∈ written cs, buf.length < 2 ^ 64)
    (h : r.serialize (BufWriter.new c s) = .ok o) (hp : perform o cs = (true, o')) (hc : o'.complete = .ok s')
    (u : τ) (next : List Ev) (hu : trace u = (wire s').map .byte ++ next) :
    ∃ after r' u', HttpRequest.deserialize c' u = (.ok r', u') ∧ r'.headers = r.headers ∧
      trace u' = after.map .byte ++ next ∧
      FramedBy r.headers.entries (framing r'.body) ∧ (∃ enc len, r'.body = HttpBody.new c' enc len u') ∧
      (Carries r.method → ∃ chs, ChunksFor chs (written cs) ∧ after = chunkedBytes chs b!"0" ++ b!"\r\n") ∧
      (¬ Carries r.method → after = [] ∧ written cs = []) := by
  obtain ⟨e1, e2⟩ := C18_serialized r s hv o h
  rw [hs, List.nil_append] at e1
  obtain ⟨m1, m2, m3⟩ := sent_request hlen hp hc
  obtain ⟨after, w1, w2, w3⟩ : ∃ after : Bytes, wire s' = requestHead r.method r.uri r.headers.entries ++ after ∧
      (Carries r.method → ∃ chs, ChunksFor chs (written cs) ∧ after = chunkedBytes chs b!"0" ++ b!"\r\n") ∧
      (¬ Carries r.method → after = [] ∧ written cs = []) := by
    cases o with
    | NoBody t =>
      obtain ⟨q1, q2⟩ := m2 t rfl
      refine ⟨[], ?_, ?_, fun _ => ⟨rfl, q2⟩⟩
      · rw [m1, q1, show sent t = outgoingSent (.NoBody (c := c) t) from rfl, e1, List.append_nil]
      · intro hm; obtain ⟨_, hx⟩ := e2.2 hm; simp at hx
    | WithBody ob =>
      obtain ⟨chs, q1, q2⟩ := m3 ob rfl
      refine ⟨chunkedBytes chs b!"0" ++ b!"\r\n", ?_, fun _ => ⟨chs, q1, rfl⟩, fun hm => absurd (e2.1 ⟨ob, rfl⟩) hm⟩
      rw [m1, q2, show sent ob.socket = outgoingSent (.WithBody ob) from rfl, e1, List.append_assoc]
  obtain ⟨r', u', f1, _, _, _, f2, f3, _, f5⟩ := C18_roundtrip c' u r.method r.uri r.headers (after.map .byte ++ next) ht hh hl (by
    rw [hu, w1, List.map_append, List.append_assoc]; exact delivers_map c' _ _)
  exact ⟨after, r', u', f1, f2, f5, f3, (request_under f1).2, w2, w3⟩

/-- What the peer reads as the body of a sent request, whatever headers it was given and whatever follows it: exactly what
was written if and only if the headers say `chunked`, or they say a length instead and by coincidence that much of the
encoded body looks like the body. -/
theorem C72_request_partial {ρ σ τ : Type} [LawfulWriter σ] [LawfulReader τ] [ZeroReader τ] (r : HttpRequest c ρ) (s s' : σ)
    (hv : r.version = ⟨1, 1⟩) (ht : SendableTarget r.uri) (hh : SendableHeaders r.headers.entries)
    (hl : LengthOk r.headers.entries) (o o' : OutgoingRequest c σ) (cs : List WCall) (hs : sent s = [])
    (hlen : ∀ buf ∈ written cs, buf.length < 2 ^ 64)
    (h : r.serialize (BufWriter.new c s) = .ok o) (hp : perform o cs = (true, o')) (hc : o'.complete = .ok s')
    (hm : Carries r.method) (u : τ) (next : Bytes) (hu : trace u = (wire s' ++ next).map .byte) :
    ∃ chs r' u', ChunksFor chs (written cs) ∧ HttpRequest.deserialize c' u = (.ok r', u') ∧ r'.headers = r.headers ∧
      (Yields r'.body (written cs).flatten ↔
        (utf8 "transfer-encoding", utf8 "chunked") ∈ r.headers.entries ∨
        ∃ v n, (utf8 "content-length", v) ∈ r.headers.entries ∧ LengthText v n ∧
          (chunkedBytes chs (utf8 "0") ++ [13, 10] ++ next).take n = (written cs).flatten) := by
  rw [show utf8 "transfer-encoding" = b!"transfer-encoding" by decide +kernel, show utf8 "chunked" = b!"chunked" by decide +kernel,
    show utf8 "content-length" = b!"content-length" by decide +kernel, show utf8 "0" = b!"0" by decide +kernel]
  rw [List.map_append] at hu
  obtain ⟨after, r', u', f1, f2, f3, f4, ⟨enc, len, f5⟩, f6, _⟩ := request_parsed (c' := c') r s s' hv ht hh hl o o' cs hs hlen h hp hc u
    (next.map .byte) hu
  obtain ⟨chs, g1, rfl⟩ := f6 hm
  refine ⟨chs, r', u', g1, f1, f2, ?_⟩
  obtain ⟨k1, k2, k3⟩ := framed_trace (c := c') enc len u'
  rw [← f5] at k1 k2 k3
  have hdec : chunkT c' [] none (trace u') = (written cs).flatten.map .byte := by
    have := (decode_sized c' len u' chs b!"0" (b!"\r\n".map Ev.byte ++ next.map .byte) (fun ch h => (g1.1 ch h).1)
      (.inl (.one (.dec 0 (by omega) (by omega)))) (by
        rw [f3, List.map_append, List.append_assoc]
        exact deliversChunked_map c' chs b!"0" _)).1
    have := trace_of_yields this
    rw [chunked_new, HttpBody.trace_chunked, HttpChunkedBody.trace_new, chunkedData_for g1] at this
    exact this
  have htr : trace u' = (chunkedBytes chs b!"0" ++ [13, 10] ++ next).map .byte := by
    rw [f3, ← List.map_append]
  rcases FramedBy.cases hl with hte | ⟨hte, ⟨v, n, hcl, hn⟩ | hno⟩
  · have hfr := framedBy_unique hh.1 f4 (.chunked hte)
    refine ⟨fun _ => .inl hte, fun _ => yields_of_trace ?_⟩
    rw [(k1 hfr).1, hdec]
  · have hfr := framedBy_unique hh.1 f4 (.limited hte hcl hn)
    have htrb : trace r'.body = ((chunkedBytes chs b!"0" ++ [13, 10] ++ next).take n).map .byte := by
      rw [k2 n hfr, htr, limitTrace_all]
    constructor
    · intro hy
      have := trace_of_yields hy
      rw [htrb] at this
      exact .inr ⟨v, n, hcl, hn, map_byte_inj this⟩
    · rintro (hx | ⟨v', n', hcl', hn', hx⟩)
      · exact absurd hx hte
      · have hfr' := framedBy_unique hh.1 f4 (.limited hte hcl' hn')
        rw [hfr] at hfr'
        simp only [Framing.limited.injEq] at hfr'
        subst hfr'
        apply yields_of_trace
        rw [htrb, hx]
  · have hfr := framedBy_unique hh.1 f4 (.tilClose hte hno)
    constructor
    · intro hy
      exfalso
      have h1 := trace_of_yields hy
      have h2 := chunkT_short _ _ _ _ hdec
      rw [k3 hfr] at h1
      rw [h1, List.length_map] at h2
      omega
    · rintro (hx | ⟨v', n', hcl', _⟩)
      · exact absurd hx hte
      · exact absurd hcl' (hno v')

/-- A request of the other methods is sent without a body; what the peer takes for its body, of what follows: nothing if
and only if the headers do not say `chunked`, if nothing follows; and `n` bytes of the next message if they say the length
`n`. -/
theorem C72_bodiless_partial {ρ σ τ : Type} [LawfulWriter σ] [LawfulReader τ] [ZeroReader τ] (r : HttpRequest c ρ) (s s' : σ)
    (hv : r.version = ⟨1, 1⟩) (ht : SendableTarget r.uri) (hh : SendableHeaders r.headers.entries)
    (hl : LengthOk r.headers.entries) (o o' : OutgoingRequest c σ) (cs : List WCall) (hs : sent s = [])
    (hlen : ∀ buf ∈ written cs, buf.length < 2 ^ 64)
    (h : r.serialize (BufWriter.new c s) = .ok o) (hp : perform o cs = (true, o')) (hc : o'.complete = .ok s')
    (hm : ¬ Carries r.method) (u : τ) (next : Bytes) (hu : trace u = (wire s' ++ next).map .byte) :
    ∃ r' u', HttpRequest.deserialize c' u = (.ok r', u') ∧ r'.headers = r.headers ∧ written cs = [] ∧
      (next = [] → (Yields r'.body [] ↔ (utf8 "transfer-encoding", utf8 "chunked") ∉ r.headers.entries)) ∧
      ((utf8 "transfer-encoding", utf8 "chunked") ∉ r.headers.entries →
        (∀ v n, (utf8 "content-length", v) ∈ r.headers.entries → LengthText v n → Yields r'.body (next.take n)) ∧
        ((∀ v, (utf8 "content-length", v) ∉ r.headers.entries) → Yields r'.body next)) := by
  rw [show utf8 "transfer-encoding" = b!"transfer-encoding" by decide +kernel, show utf8 "chunked" = b!"chunked" by decide +kernel,
    show utf8 "content-length" = b!"content-length" by decide +kernel]
  rw [List.map_append] at hu
  obtain ⟨after, r', u', f1, f2, f3, f4, ⟨enc, len, f5⟩, _, f6⟩ := request_parsed (c' := c') r s s' hv ht hh hl o o' cs hs hlen h hp hc u
    (next.map .byte) hu
  obtain ⟨rfl, g1⟩ := f6 hm
  rw [List.map_nil, List.nil_append] at f3
  obtain ⟨k1, k2, k3⟩ := framed_trace (c := c') enc len u'
  rw [← f5] at k1 k2 k3
  have main : (b!"transfer-encoding", b!"chunked") ∉ r.headers.entries →
      (∀ v n, (b!"content-length", v) ∈ r.headers.entries → LengthText v n → Yields r'.body (next.take n)) ∧
        ((∀ v, (b!"content-length", v) ∉ r.headers.entries) → Yields r'.body next) := by
    intro hte
    constructor
    · intro v n hcl hn
      apply yields_of_trace
      rw [k2 n (framedBy_unique hh.1 f4 (.limited hte hcl hn)), f3, limitTrace_all]
    · intro hno
      apply yields_of_trace
      rw [k3 (framedBy_unique hh.1 f4 (.tilClose hte hno)), f3]
  refine ⟨r', u', f1, f2, g1, ?_, main⟩
  rintro rfl
  constructor
  · intro hy hte
    have h1 := trace_of_yields hy
    rw [(k1 (framedBy_unique hh.1 f4 (.chunked hte))).1] at h1
    have h2 := chunkT_short _ _ _ _ h1
    rw [f3] at h2
    simp at h2
  · intro hte
    rcases FramedBy.cases hl with h' | ⟨_, ⟨v, n, hcl, hn⟩ | hno⟩
    · exact absurd h' hte
    · simpa using (main hte).1 v n hcl hn
    · exact (main hte).2 hno

/-- What a client reads as the body of a response from the server: exactly the body the handler gave it if and only if the
response's headers do not say `chunked`, nor a length less than the body's. -/
theorem C72_response_partial {η τ ρ' ε δ : Type} [LawfulReader τ] [ZeroReader τ] [LawfulWriter τ] [LawfulReader ρ'] [ZeroReader ρ']
    [LawfulReader δ] [ZeroReader δ] (hra : ReadsApart τ) (h : Handler c η τ ρ' ε) (ho : OnlyReads h) (errText : Err → Bytes) (s : τ)
    (self : η) (hs : sent s = []) (r : ServerResponse c ρ')
    (hi : (h.serveOneInner errText s self).1 = .ok r ∨ (h.serveOneInner errText s self).1 = .err r)
    (hv : r.version = ⟨1, 1⟩) (hh : SendableHeaders r.headers.entries) (hl : LengthOk r.headers.entries)
    (hok : (h.serveOne errText (.ok s) self).1 = .ok ()) :
    ∃ s' bs t', (h.serveOne errText (.ok s) self).2.1 = some s' ∧ Delivers c (trace r.body) bs t' ∧ Ended c t' ∧
      ∀ d : δ, trace d = (sent s').map .byte →
        ∃ r' d', HttpResponse.deserialize c' d = (.ok r', d') ∧ r'.headers = r.headers ∧
          (Yields r'.body bs ↔ (utf8 "transfer-encoding", utf8 "chunked") ∉ r.headers.entries ∧
            ∀ v n, (utf8 "content-length", v) ∈ r.headers.entries → LengthText v n → bs.length ≤ n) := by
  rw [show utf8 "transfer-encoding" = b!"transfer-encoding" by decide +kernel, show utf8 "chunked" = b!"chunked" by decide +kernel,
    show utf8 "content-length" = b!"content-length" by decide +kernel]
  obtain ⟨h1, h2⟩ := serveOne_respond h errText s self r hi
  have hsent := inner_sent hra h ho errText s self
  have h5 := respond_sent r (h.serveOneInner errText s self).2.1
  rcases h5 with ⟨_, bs, t', h6, h7, h8⟩ | ⟨e, h6, _⟩
  · refine ⟨_, bs, t', h2, h6, h7, fun d hd => ?_⟩
    rw [h8, hsent, hs, List.nil_append, response_headPieces r hv] at hd
    obtain ⟨r', d', f1, _, _, f3, f4, f5, f6⟩ := response_delivered c' d r.status r.headers (bs.map .byte) hh hl (by
      rw [hd, List.map_append]; exact delivers_map c' _ _)
    obtain ⟨_, enc, len, f7⟩ := response_under f1
    obtain ⟨k1, k2, k3⟩ := framed_trace (c := c') enc len (BufReader.new c' d')
    rw [← f7, BufReader.trace_new, f6] at k1 k2 k3
    refine ⟨r', d', f1, f3, ?_⟩
    rcases FramedBy.cases hl with hte | ⟨hte, ⟨v, n, hcl, hn⟩ | hno⟩
    · have hfr := framedBy_unique hh.1 f4 (.chunked hte)
      refine ⟨fun hy => ?_, fun hx => absurd hte hx.1⟩
      have hx := trace_of_yields hy
      rw [(k1 hfr).1] at hx
      have := chunkT_short _ _ _ _ hx
      rw [List.length_map] at this; omega
    · have hfr := framedBy_unique hh.1 f4 (.limited hte hcl hn)
      have htrb := k2 n hfr
      rw [limitTrace_all] at htrb
      constructor
      · intro hy
        refine ⟨hte, fun v' n' hcl' hn' => ?_⟩
        have hfr' := framedBy_unique hh.1 f4 (.limited hte hcl' hn')
        rw [hfr] at hfr'
        simp only [Framing.limited.injEq] at hfr'
        have hx := trace_of_yields hy
        rw [htrb] at hx
        have := congrArg List.length (map_byte_inj hx)
        rw [List.length_take] at this
        omega
      · rintro ⟨_, hx⟩
        apply yields_of_trace
        rw [htrb, List.take_of_length_le (hx v n hcl hn)]
    · have hfr := framedBy_unique hh.1 f4 (.tilClose hte hno)
      exact ⟨fun _ => ⟨hte, fun v _ hcl => absurd hcl (hno v)⟩, fun _ => yields_of_trace (k3 hfr)⟩
  · rw [hok, h6] at h1
    simp at h1

/-- What has been sent is not what the headers announce, for every method: the builder lets the caller replace the transfer
coding and goes on to send a chunked body (or none, if the method has none). -/
theorem C72_request_false (c c' : Cfg) (m : HttpMethod) :
    ¬ ∀ (u : Url) (b : HttpRequestBuilder c) (adds : List (Bytes × Bytes)) (d d1 : Duplex Wire Sink)
      (o o' : OutgoingRequest c (Duplex Wire Sink)) (cs : List WCall) (s : Wire),
      HttpRequestBuilder.new c (HttpUrl.tryFrom u) m = .ok b → (∀ kv ∈ adds, SendableHeader (CaseMap.lower kv.1, kv.2)) →
      sent d = [] → (adds.foldl (fun b kv => b.addHeader kv.1 kv.2) b).send d = .ok o → perform o cs = (true, o') →
      o'.complete = .ok d1 → trace s = (wire d1).map .byte →
      ∃ r' s', HttpRequest.deserialize c' s = (.ok r', s') ∧ Yields r'.body (written cs).flatten := by
  classical
  intro hall
  have hp : PlainHttp ⟨b!"http", some b!"h", none, b!"/", none, none, [], none⟩ := by
    unfold PlainHttp; rw [utf8_http]; exact sameText_refl _
  have ha : AsciiText b!"http" := by rw [← isAscii_iff]; decide
  have hlow : CaseMap.lower b!"Transfer-Encoding" = b!"transfer-encoding" := by
    rw [CaseMap.lower_ascii _ (by decide)]; decide
  -- the value of the added header
  obtain ⟨v, hv⟩ : ∃ v : Bytes, v = if Carries m then b!"gzip, chunked" else b!"chunked" := ⟨_, rfl⟩
  have hvt : IsText v ∧ ¬ HasCrLf v := by
    rw [hv]; split
    · exact ⟨isText_ascii (by decide), by unfold HasCrLf; decide⟩
    · exact ⟨isText_ascii (by decide), by unfold HasCrLf; decide⟩
  have plain : ∀ k w : Bytes, isAscii k = true → (58 : UInt8) ∉ k → ¬ HasCrLf k → ¬ StartsBlank k → IsText w → ¬ HasCrLf w →
      SendableHeader (k, w) := fun k w h1 h2 h3 h4 h5 h6 => ⟨isText_ascii h1, h2, h3, h4, h5, h6⟩
  have hsend : ∀ kv ∈ [(b!"Transfer-Encoding", v)], SendableHeader (CaseMap.lower kv.1, kv.2) := by
    intro kv hkv
    rw [List.mem_singleton] at hkv
    subst hkv
    dsimp only
    rw [hlow]
    exact plain b!"transfer-encoding" v (by decide) (by decide) (by unfold HasCrLf; decide) (by rw [← startsBlank_iff]; decide)
      hvt.1 hvt.2
  obtain ⟨b, o, o', d1, h1, h2, h3, h4⟩ := C55_sending (sink_reliable c) (⟨⟨[]⟩, ⟨[], 0, []⟩⟩ : Duplex Wire Sink)
    (by simp) ⟨b!"http", some b!"h", none, b!"/", none, none, [], none⟩ b!"h" m ha (.inl hp) rfl [(b!"Transfer-Encoding", v)] [] (.inr rfl)
  obtain ⟨r1, s1, g1, g2⟩ := hall _ b _ _ d1 o o' [] ⟨[.data (wire d1)]⟩ h1 hsend rfl h2 h3 h4 (by
    rw [Wire.trace_eq]; simp [WireEv.events])
  obtain ⟨sch, e1, _⟩ := HttpUrl.tryFrom_ok (u := ⟨b!"http", some b!"h", none, b!"/", none, none, [], none⟩) ha (.inl hp) rfl
  obtain ⟨b', e2, e3, e4, e5, e6⟩ := HttpRequestBuilder.new_ok c ⟨⟨b!"http", some b!"h", none, b!"/", none, none, [], none⟩, sch, b!"h"⟩ m
  rw [e1, e2] at h1
  simp only [Res.ok.injEq] at h1
  subst h1
  have hent : (b'.addHeader b!"Transfer-Encoding" v).request.headers.entries =
      [(b!"accept", b!"*/*"), (b!"host", b!"h"), (b!"transfer-encoding", v), (b!"user-agent", b!"http_io")] := by
    show mapInsert (CaseMap.lower b!"Transfer-Encoding") v b'.request.headers.entries = _
    rw [e6, hlow]
    unfold standardHeaders
    split <;> rfl
  have hl : ∀ s : Bytes, isAscii s = true → s.map asciiLowerByte = s → CaseMap.lower s = s := fun s h1 h2 => by
    rw [CaseMap.lower_ascii s h1, h2]
  have hh : SendableHeaders (b'.addHeader b!"Transfer-Encoding" v).request.headers.entries := by
    rw [hent]
    refine ⟨by unfold SortedNames; simp; decide, ?_, ?_⟩
    · intro kv hkv
      simp only [List.mem_cons, List.not_mem_nil, or_false] at hkv
      rcases hkv with rfl | rfl | rfl | rfl
      · exact hl b!"accept" (by decide) (by decide)
      · exact hl b!"host" (by decide) (by decide)
      · exact hl b!"transfer-encoding" (by decide) (by decide)
      · exact hl b!"user-agent" (by decide) (by decide)
    · intro kv hkv
      simp only [List.mem_cons, List.not_mem_nil, or_false] at hkv
      rcases hkv with rfl | rfl | rfl | rfl
      · exact plain _ _ (by decide) (by decide) (by unfold HasCrLf; decide) (by rw [← startsBlank_iff]; decide)
          (isText_ascii (by decide)) (by unfold HasCrLf; decide)
      · exact plain _ _ (by decide) (by decide) (by unfold HasCrLf; decide) (by rw [← startsBlank_iff]; decide)
          (isText_ascii (by decide)) (by unfold HasCrLf; decide)
      · exact plain b!"transfer-encoding" v (by decide) (by decide) (by unfold HasCrLf; decide) (by rw [← startsBlank_iff]; decide)
          hvt.1 hvt.2
      · exact plain _ _ (by decide) (by decide) (by unfold HasCrLf; decide) (by rw [← startsBlank_iff]; decide)
          (isText_ascii (by decide)) (by unfold HasCrLf; decide)
  have hno : ∀ w, (b!"content-length", w) ∉ (b'.addHeader b!"Transfer-Encoding" v).request.headers.entries := by
    intro w hw
    rw [hent] at hw
    simp only [List.mem_cons, List.not_mem_nil, or_false, Prod.mk.injEq] at hw
    rcases hw with h | h | h | h <;> exact absurd h.1 (by decide)
  have hu : trace (Wire.mk [.data (wire d1)]) = (wire d1 ++ []).map .byte := by
    rw [Wire.trace_eq]; simp [WireEv.events]
  have huri : (b'.addHeader b!"Transfer-Encoding" v).request.uri = b!"/" := e4
  have hsendable : SendableTarget (b'.addHeader b!"Transfer-Encoding" v).request.uri := by
    rw [huri]
    exact ⟨by decide, isText_ascii (by decide), by decide, by decide, by unfold HasCrLf; decide⟩
  have hcl : utf8 "content-length" = b!"content-length" := by decide +kernel
  by_cases hm : Carries m
  · obtain ⟨chs, r', u', _, k1, _, k2⟩ := C72_request_partial (c' := c') (b'.addHeader b!"Transfer-Encoding" v).request
      (⟨⟨[]⟩, ⟨[], 0, []⟩⟩ : Duplex Wire Sink) d1 e5 hsendable hh (fun w hw => absurd hw (hno w)) o o' [] rfl (by simp [written]) h2 h3 h4
      (by show Carries b'.request.method; rw [e3]; exact hm) (Wire.mk [.data (wire d1)]) [] hu
    rw [g1] at k1
    simp only [Prod.mk.injEq, Res.ok.injEq] at k1
    rw [← k1.1] at k2
    rcases k2.1 g2 with h | ⟨w, _, h, _⟩
    · rw [hent, hv, if_pos hm] at h
      revert h
      decide +kernel
    · rw [hcl] at h; exact hno w h
  · obtain ⟨r', u', k1, _, _, k2, _⟩ := C72_bodiless_partial (c' := c') (b'.addHeader b!"Transfer-Encoding" v).request
      (⟨⟨[]⟩, ⟨[], 0, []⟩⟩ : Duplex Wire Sink) d1 e5 hsendable hh (fun w hw => absurd hw (hno w)) o o' [] rfl (by simp [written]) h2 h3 h4
      (by show ¬ Carries b'.request.method; rw [e3]; exact hm) (Wire.mk [.data (wire d1)]) [] hu
    rw [g1] at k1
    simp only [Prod.mk.injEq, Res.ok.injEq] at k1
    rw [← k1.1] at k2
    have := (k2 rfl).1 g2
    rw [hent, hv, if_neg hm] at this
    revert this
    decide +kernel

end

/-- Answers `GET` with `hello`, and says it is chunked. -/
def claimer [CaseMap] (c : Cfg) : Handler c Unit (Duplex Wire Sink) Wire Bytes :=
  { Handler.defaults c Unit (Duplex Wire Sink) Wire Bytes fun e => ServerResponse.fromString c .NotFound e with
    get := fun _ n => (.ok ((ServerResponse.fromString c .OK b!"hello").addHeader b!"Transfer-Encoding" b!"chunked"), n) }

/-- A handler may set any header; its body is sent as it is. -/
theorem C72_response_false : let _ := asciiCase
    ¬ ∀ (c c' : Cfg) (h : Handler c Unit (Duplex Wire Sink) Wire Bytes) (errText : Err → Bytes) (s s' : Duplex Wire Sink)
      (r : ServerResponse c Wire) (bs : Bytes) (t' : List Ev) (d : Wire), OnlyReads h → sent s = [] →
      (h.serveOneInner errText s ()).1 = .ok r → SendableHeaders r.headers.entries → LengthOk r.headers.entries →
      (h.serveOne errText (.ok s) ()).1 = .ok () → (h.serveOne errText (.ok s) ()).2.1 = some s' →
      Delivers c (trace r.body) bs t' → Ended c t' → trace d = (sent s').map .byte →
      ∃ r' d', HttpResponse.deserialize c' d = (.ok r', d') ∧ Yields r'.body bs := by
  intro _ hall
  let s : Duplex Wire Sink := ⟨⟨[.data b!"GET / HTTP/1.1\r\n\r\n"]⟩, ⟨[], 0, []⟩⟩
  have hho : OnlyReads (claimer ⟨true⟩) := ⟨fun _ _ _ => ⟨[], rfl⟩, fun _ _ _ => ⟨[], rfl⟩⟩
  have hhs : SendableHeaders ((ServerResponse.fromString (ρ := Wire) ⟨true⟩ .OK b!"hello").addHeader b!"Transfer-Encoding" b!"chunked").headers.entries := by
    rw [show ((ServerResponse.fromString (ρ := Wire) ⟨true⟩ .OK b!"hello").addHeader b!"Transfer-Encoding" b!"chunked").headers.entries =
      [(b!"transfer-encoding", b!"chunked")] by decide]
    refine ⟨by unfold SortedNames; decide, by decide, ?_⟩
    intro kv hkv
    rw [List.mem_singleton] at hkv
    subst hkv
    exact ⟨isText_ascii (by decide), by decide, by unfold HasCrLf; decide, by rw [← startsBlank_iff]; decide,
      isText_ascii (by decide), by unfold HasCrLf; decide⟩
  have hlo : LengthOk ((ServerResponse.fromString (ρ := Wire) ⟨true⟩ .OK b!"hello").addHeader b!"Transfer-Encoding" b!"chunked").headers.entries := by
    rw [show ((ServerResponse.fromString (ρ := Wire) ⟨true⟩ .OK b!"hello").addHeader b!"Transfer-Encoding" b!"chunked").headers.entries =
      [(b!"transfer-encoding", b!"chunked")] by decide]
    intro v hv
    simp only [List.mem_singleton, Prod.mk.injEq] at hv
    exact absurd hv.1 (by decide)
  have hdel : Delivers ⟨true⟩ (trace ((ServerResponse.fromString (ρ := Wire) ⟨true⟩ .OK b!"hello").addHeader b!"Transfer-Encoding"
      b!"chunked").body) b!"hello" [] := by
    have : trace ((ServerResponse.fromString (ρ := Wire) ⟨true⟩ .OK b!"hello").addHeader b!"Transfer-Encoding" b!"chunked").body =
      b!"hello".map .byte := by decide +kernel
    rw [this]; exact delivers_map' _ b!"hello"
  have hi : ((claimer ⟨true⟩).serveOneInner (fun _ => []) s ()).1 =
      .ok ((ServerResponse.fromString (ρ := Wire) ⟨true⟩ .OK b!"hello").addHeader b!"Transfer-Encoding" b!"chunked") := by
    obtain ⟨r, s1, f1, f2, _⟩ := C18_roundtrip ⟨true⟩ (BufReader.new ⟨true⟩ s) .Get b!"/" ⟨[]⟩ []
      ⟨by decide, isText_ascii (by decide), by decide, by decide, by unfold HasCrLf; decide⟩
      ⟨by simp [SortedNames], by simp, by simp⟩ (by intro v hv; simp at hv) (by
        rw [BufReader.trace_new, show requestHead .Get b!"/" (⟨[]⟩ : HttpHeaders).entries = b!"GET / HTTP/1.1\r\n\r\n" by decide +kernel]
        exact delivers_map' _ b!"GET / HTTP/1.1\r\n\r\n")
    obtain ⟨g1, _⟩ := C50_handed (claimer ⟨true⟩) (fun _ => []) s () r s1 f1 (by rintro (h | h) <;> rw [f2] at h <;> simp at h)
    rw [f2] at g1
    exact g1
  have hok : ((claimer ⟨true⟩).serveOne (fun _ => []) (.ok s) ()).1 = .ok () := by decide +kernel
  obtain ⟨s', bs, t', k1, k2, k3, k4⟩ := C72_response_partial (c' := ⟨true⟩) (δ := Wire) duplex_readsApart (claimer ⟨true⟩) hho
    (fun _ => []) s () rfl _ (.inl hi) rfl hhs hlo hok
  have hbs := k2.ended_unique k3 hdel (by simp [Ended])
  subst hbs
  have hd : trace (Wire.mk [.data (sent s')]) = (sent s').map .byte := by rw [Wire.trace_eq]; simp [WireEv.events]
  obtain ⟨r', d', k5, _, k6⟩ := k4 _ hd
  obtain ⟨r2, d2, k7, k8⟩ := hall _ ⟨true⟩ _ _ s s' _ _ _ _ hho rfl hi hhs hlo hok k1 hdel (by simp [Ended]) hd
  rw [k5] at k7
  simp only [Prod.mk.injEq, Res.ok.injEq] at k7
  rw [← k7.1] at k8
  exact (k6.1 k8).1 (by decide +kernel)

/-- Witness for `C72_request_partial`: a PUT with an added `Transfer-Encoding: gzip, chunked`, sent and parsed; the peer takes
the encoding for the body. -/
example : let _ := asciiCase
    let u : Url := ⟨b!"http", some b!"h", none, b!"/up", none, none, [], none⟩
    let d : Duplex Wire Sink := ⟨⟨[]⟩, ⟨[], 0, [.accept 3, .accept 1]⟩⟩
    (match HttpRequestBuilder.new ⟨true⟩ (HttpUrl.tryFrom u) .Put with
      | .ok b =>
        match (b.addHeader b!"Transfer-Encoding" b!"gzip, chunked").send d with
        | .ok o =>
          match perform o [.write b!"ab", .write b!"c"] with
          | (true, o') =>
            match o'.complete with
            | .ok d1 =>
              match HttpRequest.deserialize ⟨false⟩ (Wire.mk [.data (wire d1)]) with
              | (.ok r, _) => decide (received (calls r.body [30, 30]).1 = b!"2\r\nab\r\n1\r\nc\r\n0\r\n\r\n")
              | _ => false
            | _ => false
          | _ => false
        | _ => false
      | _ => false) = true := by decide +kernel

/-- Witness for the coincidence in `C72_request_partial`: a body of five bytes that looks like the beginning of its own
encoding. -/
example : (chunkedBytes [⟨b!"5", b!"5\r\n5\r", [13, 10]⟩] b!"0" ++ [13, 10]).take 5 = b!"5\r\n5\r" ∧
    ChunksFor [⟨b!"5", b!"5\r\n5\r", [13, 10]⟩] [b!"5\r\n5\r"] := by
  refine ⟨by decide, ?_, by decide⟩
  intro ch hch
  rw [List.mem_singleton] at hch
  subst hch
  exact ⟨⟨.inl (.one (.dec 5 (by omega) (by omega))), by decide, by decide, rfl⟩, rfl⟩

/-- Witness for `C72_bodiless_partial`: a GET with an added `Content-Length: 6`, followed by another request; the peer takes
the beginning of that for the body of the first. -/
example : let _ := asciiCase
    let u : Url := ⟨b!"http", some b!"h", none, b!"/", none, none, [], none⟩
    let d : Duplex Wire Sink := ⟨⟨[]⟩, ⟨[], 0, [.accept 3, .accept 1]⟩⟩
    (match HttpRequestBuilder.new ⟨true⟩ (HttpUrl.tryFrom u) .Get with
      | .ok b =>
        match (b.addHeader b!"Content-Length" b!"6").send d with
        | .ok o =>
          match o.complete with
          | .ok d1 =>
            match HttpRequest.deserialize ⟨false⟩ (Wire.mk [.data (wire d1 ++ b!"GET /next HTTP/1.1\r\n\r\n")]) with
            | (.ok r, _) => decide (received (calls r.body [30, 30]).1 = b!"GET /n")
            | _ => false
          | _ => false
        | _ => false
      | _ => false) = true := by decide +kernel

/-- Witness for `C72_response_partial`: what the handler above sends, and what a client makes of it. -/
example : let _ := asciiCase
    let s : Duplex Wire Sink := ⟨⟨[.data b!"GET / HTTP/1.1\r\n\r\n"]⟩, ⟨[], 0, [.accept 1]⟩⟩
    let out := ((claimer ⟨true⟩).serveOne (fun _ => []) (.ok s) ()).2.1.map fun s' => sent s'
    ((claimer ⟨true⟩).serveOne (fun _ => []) (.ok s) ()).1 = .ok () ∧
    out = some b!"HTTP/1.1 200 OK\r\ntransfer-encoding: chunked\r\n\r\nhello" ∧
    (match HttpResponse.deserialize ⟨false⟩ (Wire.mk [.data (out.getD [])]) with
      | (.ok r, _) => decide ((calls r.body [30]).1 = [.error .unexpectedEof])
      | _ => false) = true := by decide +kernel

end HttpIo
