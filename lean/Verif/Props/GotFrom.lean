import Verif.Spec.GotFrom
import Verif.Props.Prints

/-! C191: the response that the general client makes of any bytes whatsoever. -/

namespace HttpIo
open Spec

section
variable [CaseMap]

theorem keepsLast_insertAll (hist : List (Bytes × Bytes)) :
    KeepsLast hist (insertAll (hist.map fun kv => (CaseMap.lower kv.1, kv.2)) []) := by
  have hs : SortedNames (insertAll (hist.map fun kv => (CaseMap.lower kv.1, kv.2)) []) := insertAll_sorted (by simp [SortedNames])
  exact ⟨hs, fun k v => by rw [← mapGet_iff hs, mapGet_insertAll, lastWith_map_lower]⟩

theorem keepsLast_unique {hist a b : List (Bytes × Bytes)} (ha : KeepsLast hist a) (hb : KeepsLast hist b) : a = b := by
  refine sorted_ext ha.1 hb.1 fun k => Option.ext fun v => ?_
  rw [mapGet_iff ha.1, mapGet_iff hb.1, ha.2, hb.2]

variable {c : Cfg} {σ : Type} [LawfulReader σ] [ZeroReader σ]

omit [ZeroReader σ] in
/-- The headers of the response that was read. -/
theorem response_keeps {s s' : σ} {r : HttpResponse c (BufReader c σ)} (h : HttpResponse.deserialize c s = (.ok r, s')) {line : Bytes}
    {major minor code : Nat} {hist : List (Bytes × Bytes)} {t' : List Ev} (hline : StatusLine line major minor code)
    (hd : HeadOf c (trace s) line hist t') : KeepsLast hist r.headers.entries ∧ r.version = ⟨major, minor⟩ := by
  obtain ⟨raw, h1, h2, h3, h4, h5, h6⟩ := hd
  rw [utf8_contentLength] at h6
  have h7 : blockBytes (line :: raw) = line ++ [13, 10] ++ blockBytes raw := by simp [blockBytes]
  rw [h7] at h3
  obtain ⟨enc, n, s', k1, k2⟩ := head_hist h1
    ((statusLine_ok_iff ((validUtf8_iff _).2 h1.2.2) ⟨major, minor⟩ (HttpStatus.fromCode (UInt32.ofNat code))).2 ⟨code, hline, rfl⟩)
    h4 h2 h5 h6 h3
  unfold HttpResponse.deserialize at h
  rw [k1] at h
  simp only [Prod.mk.injEq, Res.ok.injEq] at h
  obtain ⟨rfl, _⟩ := h
  exact ⟨keepsLast_insertAll hist, rfl⟩

/-- What came of it, by the events of the body. -/
def TraceGot {β : Type} [LawfulReader β] [ZeroReader β] (res : Res (HttpResponse c β)) : Got → Prop
  | .panics => res = .panic
  | .fails e => res = .err e
  | .response major minor status headers d r => ∃ x, res = .ok x ∧ x.version = ⟨major, minor⟩ ∧
      x.status = status ∧ x.headers.entries = headers ∧ trace x.body = d.map .byte ++ endEvents r

omit [CaseMap] in
theorem TraceGot.is {β : Type} [LawfulReader β] [ZeroReader β] {res : Res (HttpResponse c β)} {g : Got} (h : TraceGot res g) :
    GotIs res g := by
  cases g with
  | panics => exact h
  | fails e => exact h
  | response major minor st hs d r =>
    obtain ⟨x, h1, h2, h3, h4, h5⟩ := h
    refine ⟨x, h1, by rw [h2], by rw [h2], h3, h4, ?_⟩
    cases r with
    | none => exact yields_of_trace (by rw [h5, endEvents, List.append_nil])
    | some e => exact failsAfter_of_trace (t := []) (by rw [h5, endEvents])

omit [CaseMap] in
theorem TraceGot.unique {β : Type} [LawfulReader β] [ZeroReader β] {res : Res (HttpResponse c β)} {g g' : Got} (h : TraceGot res g)
    (h' : TraceGot res g') : g = g' := by
  cases g <;> cases g' <;> simp only [TraceGot] at h h' <;> try (rw [h] at h'; simp at h')
  · rfl
  · rw [h']
  · obtain ⟨x, h1, _⟩ := h; rw [h1] at h'; simp at h'
  · obtain ⟨x, h1, _⟩ := h; rw [h1] at h'; simp at h'
  · obtain ⟨x, h1, h2, h3, h4, h5⟩ := h
    obtain ⟨x', g1, g2, g3, g4, g5⟩ := h'
    rw [h1] at g1
    simp only [Res.ok.injEq] at g1
    subst g1
    obtain ⟨rfl, rfl⟩ := endEvents_split (h5.symm.trans g5)
    rw [h2] at g2
    simp only [HttpVersion.mk.injEq] at g2
    rw [g2.1, g2.2, ← h3, ← h4, g3, g4]

/-- What a reader of the answer is left with. -/
theorem gotFrom_read {stop : Option Err} (hstop : Final c stop) {input : Bytes} {g : Got} (h : GotFrom c stop input g) (s : σ)
    (ht : trace s = input.map .byte ++ endEvents stop) : TraceGot (HttpResponse.deserialize c s).1 g := by
  cases h with
  | cut hc => exact (C11_response_panics_iff c s).2 (by rw [ht]; exact hc)
  | none hf => exact (C188_response c s _).2 (by rw [ht]; exact hf)
  | response h1 h2 h3 h4 h5 =>
    obtain ⟨r, s1, g1, g2, g3⟩ := responds_read hstop ⟨_, _, _, h1, h2⟩ s ht
    obtain ⟨k1, k2⟩ := response_keeps g1 h1 (by rw [ht]; exact h2)
    rw [g1]
    exact ⟨r, rfl, k2, statusFor_unique g2 h3, keepsLast_unique k1 h4, g3 _ _ h5⟩

/-! ### C191 -/

/-- The rules say something of all bytes. -/
theorem C191_total (c : Cfg) (stop : Option Err) (hstop : Final c stop) (input : Bytes) : ∃ g, GotFrom c stop input g := by
  by_cases hc : CutResponse c (input.map .byte ++ endEvents stop)
  · exact ⟨_, .cut hc⟩
  by_cases hq : ∃ line major minor code hist t', StatusLine line major minor code ∧ HeadOf c (input.map .byte ++ endEvents stop) line hist t'
  case neg =>
    obtain ⟨e, he⟩ := (C188_total c (input.map .byte ++ endEvents stop)).2.2 ⟨hc, by
      rintro line hist t' major minor code h
      exact hq ⟨_, _, _, _, _, _, h⟩⟩
    exact ⟨_, .none he⟩
  obtain ⟨line, major, minor, code, hist, t', h1, h2⟩ := hq
  obtain ⟨rest, rfl⟩ : ∃ rest : Bytes, t' = rest.map .byte ++ endEvents stop := by
    obtain ⟨_, _, _, h3, _⟩ := h2
    exact delivers_left h3
  obtain ⟨r, _, _, hst, _⟩ := responds_read hstop ⟨_, _, _, h1, h2⟩ (stoppedConn input stop) (stoppedConn_trace input stop)
  obtain ⟨d, e, hb⟩ : ∃ d e, ReplyBody c stop hist rest d e := by
    by_cases k1 : LastNamed "transfer-encoding" hist (utf8 "chunked")
    · obtain ⟨d, r, h⟩ := C185_total c stop rest
      exact ⟨_, _, .told (.chunked k1 h)⟩
    · by_cases k2 : ∃ v, LastNamed "content-length" hist v
      · obtain ⟨v, k2⟩ := k2
        obtain ⟨_, _, _, _, _, _, h6⟩ := h2
        obtain ⟨n, hn, _⟩ := h6 v k2
        exact ⟨_, _, .told (.limited k1 k2 hn)⟩
      · exact ⟨_, _, .tilClose ⟨k1, fun v hv => k2 ⟨v, hv⟩⟩⟩
  exact ⟨_, .response h1 h2 hst (keepsLast_insertAll hist) hb⟩

/-- And one thing only. -/
theorem C191_unique {stop : Option Err} (hstop : Final c stop) {input : Bytes} {g g' : Got} (h : GotFrom c stop input g)
    (h' : GotFrom c stop input g') : g = g' :=
  (gotFrom_read hstop h (stoppedConn input stop) (stoppedConn_trace input stop)).unique
    (gotFrom_read hstop h' (stoppedConn input stop) (stoppedConn_trace input stop))

end

section
variable [CaseMap] {c : Cfg} {ω ρ σ ο : Type} [LawfulReader ρ] [ZeroReader ρ] [LawfulWriter σ] [LawfulWriter ο]

omit [ZeroReader ρ] in
theorem finish_reads {P : σ → Prop} (hr : Reliable c P) (o : OutgoingRequest c (Duplex ρ σ)) (hP : P o.socketOf.wr) :
    ∃ d1 : Duplex ρ σ, d1.rd = o.socketOf.rd ∧ o.finish = HttpResponse.deserialize c d1 := by
  obtain ⟨d1, h7, _⟩ := (duplex_reliable (ρ := ρ) hr).complete_ok hP
  have h9 := (duplex_kept (σ := σ) o.socketOf.rd).complete (c := c) (o := o) rfl
  rw [h7] at h9
  exact ⟨d1, h9, by unfold OutgoingRequest.finish; rw [h7]⟩

/-- `OutgoingRequest::finish`, for any request, at any point of its body, on a connection that takes everything, whatever the peer
sends: what comes of it is what the rules say. -/
theorem C191_finish {P : σ → Prop} (hr : Reliable c P) (o : OutgoingRequest c (Duplex ρ σ)) (hP : P o.socketOf.wr)
    (stop : Option Err) (hstop : Final c stop) (input : Bytes) (ht : trace o.socketOf.rd = input.map .byte ++ endEvents stop) (g : Got)
    (hg : GotFrom c stop input g) : GotIs o.finish.1 g := by
  obtain ⟨d1, h1, h2⟩ := finish_reads hr o hP
  rw [h2]
  exact (gotFrom_read hstop hg d1 (by rw [Duplex.trace_eq, h1, ht])).is

/-- The advanced client, whatever the server sends: how it ends and what it has printed is what the rules say. -/
theorem C191_advanced {P : σ → Prop} (hr : Reliable c P) {Q : ο → Prop} (hq : Reliable c Q) (parse : Bytes → Option Url)
    (connect : Bytes → Nat → ω → Except Err (Duplex ρ σ) × ω) (debug : HttpHeaders → Bytes) (text : Bytes) (url : Url)
    (hparse : parse text = some url) (hu : Askable url) (hlow : LowerScheme url) (host : Bytes) (hhost : url.host = some host)
    (port : Nat) (hport : url.port = some port ∨ url.port = none ∧ DefaultPort url port) (w w1 : ω) (d : Duplex ρ σ)
    (hc : connect host port w = (.ok d, w1)) (hP : P d.wr)
    (stop : Option Err) (hstop : Final c stop) (input : Bytes) (ht : trace d.rd = input.map .byte ++ endEvents stop)
    (out : ο) (ho : Q out) (g : Got) (hg : GotFrom c stop input g) :
    ∃ out', advanceClient c parse connect debug text w out = ((shown debug g).1, out', w1) ∧
      sent out' = sent out ++ (shown debug g).2 := by
  obtain ⟨sch, h3, _⟩ := HttpUrl.tryFrom_ok hu.ascii hu.scheme hhost
  obtain ⟨p, h4, h5, h6, _⟩ := C40_port url _ hlow h3
  have hpp : p = port := by
    rcases hport with h | ⟨h, hd⟩
    · exact h5 _ h
    · exact defaultPort_unique hu.ascii (h6 h) hd
  subst hpp
  obtain ⟨b, g1, _⟩ := HttpRequestBuilder.new_ok c ⟨url, sch, host⟩ .Get
  obtain ⟨o, g2, g3⟩ := (duplex_reliable (ρ := ρ) hr).serialize_ok b.request (s := d) hP
  have g4 := (duplex_kept (σ := σ) d.rd).serialize (c := c) (r := b.request) (s := d) rfl
  rw [g2] at g4
  obtain ⟨d1, k1, k2⟩ := finish_reads hr o g3
  have hres := gotFrom_read hstop hg d1 (by rw [Duplex.trace_eq, k1, g4, ht])
  unfold advanceClient HttpUrl.fromStr
  rw [hparse]; dsimp only
  rw [h3]; dsimp only
  rw [h4]; dsimp only
  rw [hc]; dsimp only
  unfold HttpRequestBuilder.get HttpRequestBuilder.send
  rw [g1]; dsimp only
  rw [g2]; dsimp only
  rw [k2]
  rcases hds : HttpResponse.deserialize c d1 with ⟨res, s1⟩
  rw [hds] at hres
  dsimp only at hres
  cases g with
  | panics => cases hres; exact ⟨out, rfl, by simp [shown]⟩
  | fails e => cases hres; exact ⟨out, rfl, by simp [shown]⟩
  | response major minor st hs bd r =>
    obtain ⟨x, rfl, _, _, f3, f4⟩ := hres
    have hx : x.headers = ⟨hs⟩ := by rw [← f3]
    dsimp only
    rw [hx]
    have hwr := hq.writeAll_ok out (debug ⟨hs⟩ ++ b!"\n") ho
    rcases hwo : writeAll c out (debug ⟨hs⟩ ++ b!"\n") with ⟨_ | _, out1⟩
    · rw [hwo] at hwr; simp at hwr
    have ho1 := hq.writeAll_next out (debug ⟨hs⟩ ++ b!"\n") ho
    rw [hwo] at ho1
    have hsent := LawfulWriter.writeAll_ok_sent hwo
    obtain ⟨x', out', e1, _, e3⟩ := printBody_trace hq ho1 f4 (fun e he => by
      subst he
      cases hg with
      | response h1 h2 h3 h4 h5 => exact replyBody_final hstop h5)
    refine ⟨out', by dsimp only; rw [e1]; cases r <;> rfl, ?_⟩
    rw [e3, hsent]; cases r <;> simp [shown]

end

/-- A redirect with a header twice, in two spellings, and a body to the end of the connection. -/
theorem redirect_gotFrom (c : Cfg) (stop : Option Err) (rest : Bytes) :
    @GotFrom asciiCase c stop (b!"HTTP/1.0 302 Found\r\nB: 1\r\nA: 2\r\nb: 3\r\n\r\n" ++ rest)
      (.response 1 0 .Found [(b!"a", b!"2"), (b!"b", b!"3")] rest stop) := by
  let _ := asciiCase
  refine .response (line := b!"HTTP/1.0 302 Found") (code := 302) (hist := [(b!"B", b!"1"), (b!"A", b!"2"), (b!"b", b!"3")]) (rest := rest)
    ?_ ?_ ?_ ?_ (.tilClose ⟨?_, ?_⟩)
  · have hv : parseStatusLine b!"HTTP/1.0 302 Found" = .ok (⟨1, 0⟩, .Found) := by decide +kernel
    obtain ⟨code, hcode, hst⟩ := (statusLine_ok_iff (by decide +kernel) _ _).1 hv
    have hlt : code < 2 ^ 32 := by obtain ⟨_, _, _, _, _, _, _, _, _, _, _, h⟩ := hcode; exact h
    have := congrArg (fun st => st.toCode.toNat) hst
    rw [C01_code_lossless] at this
    have h2 : (UInt32.ofNat code).toNat = code := by simp [Nat.mod_eq_of_lt hlt]
    rw [h2] at this
    rw [← this] at hcode
    exact hcode
  · refine ⟨[b!"B: 1", b!"A: 2", b!"b: 3"], rawLine_of (by decide) (by decide) (by decide), ?_, ?_, ?_, by decide, ?_⟩
    · intro l hl
      simp only [List.mem_cons, List.not_mem_nil, or_false] at hl
      rcases hl with rfl | rfl | rfl <;> exact rawLine_of (by decide) (by decide) (by decide)
    · rw [List.map_append, List.append_assoc]; exact delivers_map c (blockBytes [b!"HTTP/1.0 302 Found", b!"B: 1", b!"A: 2", b!"b: 3"]) (rest.map .byte ++ endEvents stop)
    · exact Folded.line (first := b!"B: 1") (conts := []) (by simp) (by simp [StartsBlank]) (Folded.line (first := b!"A: 2") (conts := []) (by simp) (by simp [StartsBlank])
        (Folded.line (first := b!"b: 3") (conts := []) (rest := []) (by simp) (by simp) .nil))
    · rintro v ⟨pre, k, post, h1, h2, _⟩
      have hk : (k, v) ∈ [(b!"B", b!"1"), (b!"A", b!"2"), (b!"b", b!"3")] := by rw [h1]; simp
      simp only [List.mem_cons, List.not_mem_nil, or_false, Prod.mk.injEq] at hk
      rw [utf8_contentLength] at h2
      rcases hk with ⟨rfl, _⟩ | ⟨rfl, _⟩ | ⟨rfl, _⟩ <;> exact absurd h2 (by decide)
  · exact statusFor_fromCode 302
  · have := keepsLast_insertAll [(b!"B", b!"1"), (b!"A", b!"2"), (b!"b", b!"3")]
    exact this
  · rintro ⟨pre, k, post, h1, h2, _⟩
    have hk : k ∈ [b!"B", b!"A", b!"b"] := by
      have := congrArg (List.map Prod.fst) h1
      rw [show [b!"B", b!"A", b!"b"] = List.map Prod.fst [(b!"B", b!"1"), (b!"A", b!"2"), (b!"b", b!"3")] from rfl, this]; simp
    simp only [List.mem_cons, List.not_mem_nil, or_false] at hk
    rw [show utf8 "transfer-encoding" = b!"transfer-encoding" by decide +kernel] at h2
    rcases hk with rfl | rfl | rfl <;> exact absurd h2 (by decide)
  · rintro v ⟨pre, k, post, h1, h2, _⟩
    have hk : k ∈ [b!"B", b!"A", b!"b"] := by
      have := congrArg (List.map Prod.fst) h1
      rw [show [b!"B", b!"A", b!"b"] = List.map Prod.fst [(b!"B", b!"1"), (b!"A", b!"2"), (b!"b", b!"3")] from rfl, this]; simp
    simp only [List.mem_cons, List.not_mem_nil, or_false] at hk
    rw [utf8_contentLength] at h2
    rcases hk with rfl | rfl | rfl <;> exact absurd h2 (by decide)

/-- Witness for `C191_finish`, `C191_total` and `C191_unique`: a request with a body half sent, and that answer, after which the
connection is reset. -/
example (c : Cfg) : let _ := asciiCase
    let input := b!"HTTP/1.0 302 Found\r\nB: 1\r\nA: 2\r\nb: 3\r\n\r\n" ++ b!"moved"
    (∀ g, GotFrom c (some .unexpectedEof) input g ↔ g = .response 1 0 .Found [(b!"a", b!"2"), (b!"b", b!"3")] b!"moved" (some .unexpectedEof)) ∧
    ∃ x, (OutgoingRequest.WithBody (c := c) ⟨BufWriter.new c (⟨⟨[.data input, .fault .unexpectedEof]⟩, ⟨[], 0, [.accept 1]⟩⟩ : Duplex Wire Sink)⟩).finish.1 =
      .ok x ∧ x.status = .Found ∧ x.headers.entries = [(b!"a", b!"2"), (b!"b", b!"3")] ∧ FailsAfter x.body b!"moved" .unexpectedEof := by
  intro _ input
  have hfin : Final c (some .unexpectedEof) := by
    intro e h; simp only [Option.some.injEq] at h; subst h; rcases c with ⟨_ | _⟩ <;> simp [Retried]
  have hg := redirect_gotFrom c (some .unexpectedEof) b!"moved"
  refine ⟨fun g => ⟨fun h => C191_unique hfin h hg, fun h => h ▸ hg⟩, ?_⟩
  obtain ⟨x, h1, _, _, h2, h3, h4⟩ := C191_finish (sink_reliable c)
    (OutgoingRequest.WithBody (c := c) ⟨BufWriter.new c (⟨⟨[.data input, .fault .unexpectedEof]⟩, ⟨[], 0, [.accept 1]⟩⟩ : Duplex Wire Sink)⟩)
    (by intro a ha; change a ∈ [WPlan.accept 1] at ha; simp only [List.mem_cons, List.not_mem_nil, or_false] at ha; exact .inl ⟨0, ha⟩)
    (some .unexpectedEof) hfin input rfl _ hg
  exact ⟨x, h1, h2, h3, h4⟩

/-- Witness for `C191_advanced`: the program is content with the redirect, and prints it. -/
example (c : Cfg) : let _ := asciiCase
    let input := b!"HTTP/1.0 302 Found\r\nB: 1\r\nA: 2\r\nb: 3\r\n\r\n" ++ b!"moved"
    ∃ out', advanceClient c (fun _ => some sampleUrl) (fun _ _ w => (.ok (⟨⟨[.data input]⟩, ⟨[], 0, [.accept 1]⟩⟩ : Duplex Wire Sink), w))
        (fun h => headerText h.entries) b!"https://h:8443/p" () (Sink.mk [] 0 []) = (.ok (), out', ()) ∧
      out'.got = b!"a: 2\r\nb: 3\r\n\nmoved" := by
  intro _ input
  exact C191_advanced (sink_reliable c) (sink_reliable c) (fun _ => some sampleUrl)
    (fun _ _ w => (.ok (⟨⟨[.data input]⟩, ⟨[], 0, [.accept 1]⟩⟩ : Duplex Wire Sink), w)) (fun h => headerText h.entries) b!"https://h:8443/p" sampleUrl
    rfl sampleUrl_askable (by unfold LowerScheme; decide) b!"h" rfl 8443
    (.inl rfl) () () _ rfl
    (by intro a ha; simp only [List.mem_cons, List.not_mem_nil, or_false] at ha; exact .inl ⟨0, ha⟩)
    none (by intro e h; simp at h) input rfl (Sink.mk [] 0 []) (by simp) _ (redirect_gotFrom c none b!"moved")

end HttpIo
