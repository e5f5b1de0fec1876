import Verif.Props.Programs
import Verif.Props.Rfc
import Verif.Props.CutUpload

/-! C107: `examples/no_std.rs`. -/

namespace HttpIo
open Spec

/-- Lines none of which continues another. -/
theorem folded_lines {ls : List Bytes} (h : ∀ l ∈ ls, ¬ StartsBlank l) : Folded ls ls := by
  induction ls with
  | nil => exact .nil
  | cons l ls ih =>
    have := Folded.line (first := l) (conts := []) (rest := ls) (logical := ls) (by simp) (by
      intro x hx
      exact h x (by cases ls <;> simp_all)) (ih fun x hx => h x (by simp [hx]))
    simpa using this

theorem rawLine_ascii {l : Bytes} (h1 : l ≠ []) (h2 : isAscii l = true) (h3 : ¬ HasCrLf l) : RawLine l :=
  ⟨h1, h3, isText_ascii h2⟩

/-- The header lines of the canned response. -/
def cannedHist : List (Bytes × Bytes) :=
  [(b!"Content-Length", b!"11"), (b!"Content-Type", b!"text/html"), (b!"Connection", b!"Closed")]

/-- The canned response is a response with a body of eleven bytes. -/
theorem canned_parsed [CaseMap] {c : Cfg} {σ : Type} [LawfulReader σ] [ZeroReader σ] (s : σ) (h : trace s = cannedResponse.map .byte) :
    ∃ r s', HttpResponse.deserialize c s = (.ok r, s') ∧ r.body = HttpBody.Limited ⟨BufReader.new c s', 11⟩ ∧
      trace s' = (b!"hello world\n").map .byte := by
  let raw : List Bytes := [b!"Content-Length: 11", b!"Content-Type: text/html", b!"Connection: Closed"]
  have hraw : ∀ l ∈ raw, RawLine l := by
    intro l hl
    simp only [raw, List.mem_cons, List.not_mem_nil, or_false] at hl
    rcases hl with rfl | rfl | rfl <;> exact rawLine_ascii (by decide) (by decide) (by unfold HasCrLf; decide)
  have hf : Folded raw (cannedHist.map fun kv => kv.1 ++ [58, 32] ++ kv.2) := by
    have : cannedHist.map (fun kv => kv.1 ++ [58, 32] ++ kv.2) = raw := by decide
    rw [this]
    apply folded_lines
    intro l hl
    simp only [raw, List.mem_cons, List.not_mem_nil, or_false] at hl
    rcases hl with rfl | rfl | rfl <;> (rw [← startsBlank_iff]; decide)
  have hlow : cannedHist.map (fun kv => (CaseMap.lower kv.1, kv.2)) =
      [(b!"content-length", b!"11"), (b!"content-type", b!"text/html"), (b!"connection", b!"Closed")] := by
    simp only [cannedHist, List.map_cons, List.map_nil]
    rw [CaseMap.lower_ascii _ (by decide), CaseMap.lower_ascii _ (by decide), CaseMap.lower_ascii _ (by decide)]
    rfl
  obtain ⟨enc, n, s', h1, h2⟩ := head_hist (c := c) (s := s) (start := parseStatusLine) (line := b!"HTTP/1.1 200 OK")
    (a := (⟨1, 1⟩, .OK)) (t' := (b!"hello world\n").map .byte)
    (rawLine_ascii (by decide) (by decide) (by unfold HasCrLf; decide)) (by decide +kernel) hf hraw (by decide)
    (by
      intro v hv
      have : (v = b!"11") := by
        obtain ⟨pre, k, post, he, hk, _⟩ := hv
        have hm : (CaseMap.lower k, v) ∈ cannedHist.map (fun kv => (CaseMap.lower kv.1, kv.2)) := by
          rw [he]; simp
        rw [hlow, hk] at hm
        simp at hm
        exact hm
      rw [this]
      exact ⟨11, lengthText_iff.1 (by decide)⟩)
    (by
      rw [h, show cannedResponse = (b!"HTTP/1.1 200 OK" ++ [13, 10] ++ blockBytes raw) ++ b!"hello world\n" by decide +kernel,
        List.map_append]
      exact delivers_map c _ _)
  obtain ⟨_, h3, h4⟩ := parseHead_framing h1
  rw [hlow] at h1 h3 h4
  have hent : insertAll [(b!"content-length", b!"11"), (b!"content-type", b!"text/html"), (b!"connection", b!"Closed")] [] =
      [(b!"connection", b!"Closed"), (b!"content-length", b!"11"), (b!"content-type", b!"text/html")] := by decide
  rw [hent] at h1 h3 h4
  have henc : enc = none := by
    rw [h3]
    unfold HttpHeaders.get
    rw [lower_transferEncoding]
    decide
  have hn : n = some 11 := by
    unfold contentLengthOf HttpHeaders.get at h4
    rw [lower_contentLength] at h4
    have : mapGet b!"content-length" [(b!"connection", b!"Closed"), (b!"content-length", b!"11"), (b!"content-type", b!"text/html")] =
      some b!"11" := by decide
    rw [this] at h4
    have h5 : parseU64 b!"11" = .ok 11 := by decide
    dsimp only at h4
    rw [h5] at h4
    simpa using h4.symm
  subst henc hn
  unfold HttpResponse.deserialize
  rw [h1]
  exact ⟨_, s', rfl, rfl, h2⟩

section
variable [CaseMap] {ο : Type} [LawfulWriter ο]

/-- The fake connection does not fail. -/
theorem fakeTcp_reliable (c : Cfg) : Reliable c fun d : Duplex SliceReader Sink =>
    ∀ a ∈ d.wr.plan, (∃ n, a = .accept (n + 1)) ∨ ∃ e, a = .fault e ∧ Retried c e :=
  duplex_reliable (sink_reliable c)

omit [CaseMap] [LawfulWriter ο] in
theorem finish_said {c : Cfg} {o : OutgoingRequest c (Duplex SliceReader Sink)} {d : Duplex SliceReader Sink} (h : o.complete = .ok d)
    [CaseMap] (hrd : d.rd = ⟨cannedResponse⟩) (hw : wire d.wr = sent d.wr) :
    ∃ r d', o.finish = (.ok r, d') ∧ r.body = .Limited ⟨BufReader.new c d', 11⟩ ∧
      trace d' = (b!"hello world\n").map .byte ∧ d'.wr.got = wire d.wr := by
  obtain ⟨r, d', h1, h2, h3⟩ := canned_parsed (c := c) d (by rw [Duplex.trace_eq, hrd]; rfl)
  refine ⟨r, d', by unfold OutgoingRequest.finish; rw [h]; exact h1, h2, h3, ?_⟩
  have := (ReadKept.response (P := fun x : Duplex SliceReader Sink => x.wr = d.wr) ⟨fun _ _ h => h⟩ (c := c) (s := d) rfl)
  rw [h1] at this
  rw [show d'.wr = d.wr from this, hw]
  rfl

/-- Printing what the canned response contains. -/
theorem hello_printed {Q : ο → Prop} (hq : Reliable ⟨false⟩ Q) {out : ο} (ho : Q out) {d : Duplex SliceReader Sink}
    (hd : trace d = (b!"hello world\n").map .byte) :
    ∃ b out', printBody (c := ⟨false⟩) (HttpBody.Limited ⟨BufReader.new ⟨false⟩ d, 11⟩ : HttpBody ⟨false⟩ _) out = (.ok (), b, out') ∧
      sent out' = sent out ++ b!"hello world" := by
  have h1 : Delivers ⟨false⟩ (trace (BufReader.new ⟨false⟩ d)) b!"hello world" [.byte 10] := by
    rw [BufReader.trace_new, hd]
    exact delivers_map _ b!"hello world" [.byte 10]
  have h2 := delivers_limit h1 0
  obtain ⟨b, out', k1, _, k2⟩ := printBody_ok hq ho (body := (HttpBody.Limited ⟨BufReader.new ⟨false⟩ d, 11⟩ : HttpBody ⟨false⟩ _))
    (bs := b!"hello world") h2 (by intro ev h; simp [limitTrace] at h)
  exact ⟨b, out', k1, k2⟩

/-- What the program does before it prints. -/
theorem noStd_runs (parse : Bytes → Option Url) (method data text : Bytes) (m : HttpMethod)
    (hmethod : SameText method (utf8 (methodName m))) (hascii : AsciiText method) (hm : m = .Get ∨ m = .Put) (url : Url)
    (hparse : parse text = some url) (hu : Askable url) (hlow : LowerScheme url) :
    ∃ (d : Duplex SliceReader Sink) (said : Bytes), trace d = (b!"hello world\n").map .byte ∧
      RequestFor url m (if m = .Put then data else []) said ∧
      ∀ out : ο, noStdProgram parse method data text out =
        match printBody (c := ⟨false⟩) (HttpBody.Limited ⟨BufReader.new ⟨false⟩ d, 11⟩ : HttpBody ⟨false⟩ _) out with
        | (.ok _, _, out) => (.ok (), out, some said)
        | (_, _, out) => (.panic, out, some said) := by
  have hfs := (C05_parse method hascii m).1.2 hmethod
  obtain ⟨host, hhost⟩ := hu.host
  obtain ⟨sch, h3, _⟩ := HttpUrl.tryFrom_ok hu.ascii hu.scheme hhost
  obtain ⟨port, h4, _⟩ := C40_port url _ hlow h3
  have hparsed : HttpUrl.fromStr parse text = .ok ⟨url, sch, host⟩ := by unfold HttpUrl.fromStr; rw [hparse]; exact h3
  rcases hm with rfl | rfl
  · obtain ⟨b, o, o', s1, bytes, h5, h6, h7, h8, h9, h10, h11, _, h12⟩ := request_said (fakeTcp_reliable ⟨false⟩)
      (duplex_kept (σ := Sink) (SliceReader.mk cannedResponse)) fakeTcp (by simp [fakeTcp]) rfl rfl ⟨false, url, [], []⟩
      ⟨hu.ascii, hu.scheme, hu.host, by simp [written], by simp [written]⟩
    rw [if_neg (by simp)] at h5
    dsimp only at h5 h7
    rw [perform] at h7
    simp only [Prod.mk.injEq, true_and] at h7
    subst h7
    obtain ⟨r, d', g1, g2, g3, g4⟩ := finish_said h8 h12 h11.symm
    rw [h3] at h5
    refine ⟨d', bytes, g3, ?_, fun out => ?_⟩
    rotate_left
    · unfold noStdProgram
      rw [hfs]; dsimp only
      rw [hparsed]; dsimp only
      rw [h4]; dsimp only
      unfold HttpRequestBuilder.get
      rw [h5]; dsimp only
      rw [h6]; dsimp only
      rw [g1]; dsimp only
      rw [g2, g4]
      rw [show wire s1.wr = wire s1 from rfl, h10]
      rfl
    · obtain ⟨host, j1, j2⟩ := h9
      exact ⟨host, j1, by simpa using j2⟩
  · obtain ⟨b, o, k, body', o', s1, bytes, h5, h6, h7, h8, h9, h10, h11, h12⟩ := put_said (fakeTcp_reliable ⟨false⟩)
      (duplex_kept (σ := Sink) (SliceReader.mk cannedResponse)) (s := fakeTcp) (by simp [fakeTcp]) rfl rfl hu
      (body := SliceReader.mk data) (up := data) (t' := []) (by
        show Delivers ⟨false⟩ (data.map .byte) _ _
        exact delivers_map' _ data) (by simp [Ended])
    obtain ⟨r, d', g1, g2, g3, g4⟩ := finish_said h8 h12 h11.symm
    rw [h3] at h5
    refine ⟨d', bytes, g3, by simpa using h9, fun out => ?_⟩
    unfold noStdProgram
    rw [hfs]; dsimp only
    rw [hparsed]; dsimp only
    rw [h4]; dsimp only
    unfold HttpRequestBuilder.put
    rw [h5]; dsimp only
    rw [h6]; dsimp only
    rw [h7]; dsimp only
    rw [g1]; dsimp only
    rw [g2, g4]
    rw [show wire s1.wr = wire s1 from rfl, h10]
    rfl

/-- For a GET or PUT (in whatever case the method is written), every http or https URL, every text and every standard output
that does not fail: the program succeeds, having printed exactly `hello world` (not the line feed that follows it in the
canned response), and what was written to the connection is exactly the request, with the text as body of a PUT. -/
theorem C107_prints {Q : ο → Prop} (hq : Reliable ⟨false⟩ Q) (parse : Bytes → Option Url) (method data text : Bytes) (m : HttpMethod)
    (hmethod : SameText method (utf8 (methodName m))) (hascii : AsciiText method) (hm : m = .Get ∨ m = .Put) (url : Url)
    (hparse : parse text = some url) (hu : Askable url) (hlow : LowerScheme url) (out : ο) (ho : Q out) :
    ∃ out' said, noStdProgram parse method data text out = (.ok (), out', some said) ∧
      sent out' = sent out ++ utf8 "hello world" ∧ RequestFor url m (if m = .Put then data else []) said := by
  obtain ⟨d, said, h1, h2, h3⟩ := noStd_runs (ο := ο) parse method data text m hmethod hascii hm url hparse hu hlow
  obtain ⟨b, out', h4, h5⟩ := hello_printed hq ho h1
  refine ⟨out', said, by rw [h3, h4], by rw [h5, show utf8 "hello world" = b!"hello world" by decide +kernel], h2⟩

/-- For the same arguments and every standard output, which may fail: if the program succeeds, it has printed all of
`hello world`; if not, it panics, having printed a part of it. -/
theorem C107_output (parse : Bytes → Option Url) (method data text : Bytes) (m : HttpMethod)
    (hmethod : SameText method (utf8 (methodName m))) (hascii : AsciiText method) (hm : m = .Get ∨ m = .Put) (url : Url)
    (hparse : parse text = some url) (hu : Askable url) (hlow : LowerScheme url) (out : ο) :
    ∃ out' said, (noStdProgram parse method data text out = (.ok (), out', some said) ∧
        sent out' = sent out ++ utf8 "hello world") ∨
      (noStdProgram parse method data text out = (.panic, out', some said) ∧
        ∃ p, p <+: utf8 "hello world" ∧ sent out' = sent out ++ p) := by
  obtain ⟨d, said, h1, _, h3⟩ := noStd_runs (ο := ο) parse method data text m hmethod hascii hm url hparse hu hlow
  have e : utf8 "hello world" = b!"hello world" := by decide +kernel
  have hd : Delivers ⟨false⟩ (trace (BufReader.new ⟨false⟩ d)) b!"hello world" [.byte 10] := by
    rw [BufReader.trace_new, h1]
    exact delivers_map _ b!"hello world" [.byte 10]
  have hd' := delivers_limit hd 0
  have htr : trace (HttpBody.Limited ⟨BufReader.new ⟨false⟩ d, 11⟩ : HttpBody ⟨false⟩ _) = (b!"hello world").map .byte := by
    rw [HttpBody.trace_limited]
    dsimp only
    rw [BufReader.trace_new, h1]
    decide +kernel
  rw [h3, e]
  unfold printBody
  rcases hc : copy ⟨false⟩ (HttpBody.Limited ⟨BufReader.new ⟨false⟩ d, 11⟩ : HttpBody ⟨false⟩ _) out 0 with ⟨er | k, b, out'⟩
  · obtain ⟨p, bs, t', k1, k2, k3⟩ := C33_copy_err _ _ _ _ _ _ _ hc
    refine ⟨out', said, .inr ⟨rfl, p, k2.trans ?_, k3⟩⟩
    rw [htr] at k1
    have := delivers_bytesOf k1
    rw [show bytesOf ((b!"hello world").map .byte) = b!"hello world" by decide +kernel] at this
    exact ⟨_, this.symm⟩
  · obtain ⟨bs, t', k1, k2, k3, _⟩ := C33_copy_ok _ _ _ _ _ _ _ hc
    refine ⟨out', said, .inl ⟨rfl, ?_⟩⟩
    rw [htr] at k1
    rw [k3, (delivers_map' _ b!"hello world").ended_unique (by simp [Ended]) k1 k2]

/-- Without a GET or PUT, or without a URL of that kind, the program fails and prints nothing: a method that it does not know
and a method it does not support, a text that is no URL, and a URL of another scheme. -/
theorem C107_refused (parse : Bytes → Option Url) (method data text : Bytes) (hascii : AsciiText method) (out : ο) :
    ((∀ m, ¬ SameText method (utf8 (methodName m))) → noStdProgram parse method data text out = (.err .parse, out, none)) ∧
    (∀ m, SameText method (utf8 (methodName m)) →
      (parse text = none → noStdProgram parse method data text out = (.err .url, out, none)) ∧
      ∀ url, parse text = some url →
        (AsciiText url.scheme → ¬ PlainHttp url → ¬ SecureHttp url →
          noStdProgram parse method data text out = (.err .url, out, none)) ∧
        (m ≠ .Get → m ≠ .Put → Askable url → LowerScheme url →
          noStdProgram parse method data text out = (.err (.unexpectedMethod m), out, none))) := by
  constructor
  · intro h
    unfold noStdProgram
    rw [(C05_parse method hascii .Get).2 h]
  · intro m hm
    have hfs := (C05_parse method hascii m).1.2 hm
    refine ⟨fun hp => ?_, fun url hp => ⟨fun ha h1 h2 => ?_, fun h1 h2 hu hlow => ?_⟩⟩
    · unfold noStdProgram HttpUrl.fromStr
      rw [hfs, hp]
    · have h3 := (C40_accepted url ha).2.1.2 (by simp [h1, h2])
      unfold noStdProgram HttpUrl.fromStr
      rw [hfs, hp]; dsimp only
      rw [h3]
    · obtain ⟨host, hhost⟩ := hu.host
      obtain ⟨sch, h3, _⟩ := HttpUrl.tryFrom_ok hu.ascii hu.scheme hhost
      obtain ⟨port, h4, _⟩ := C40_port url _ hlow h3
      unfold noStdProgram HttpUrl.fromStr
      rw [hfs, hp]; dsimp only
      rw [h3]; dsimp only
      rw [h4]; dsimp only
      cases m <;> simp_all

/-- A URL of the kind that the program takes. -/
example : Askable sampleUrl ∧ LowerScheme sampleUrl := ⟨sampleUrl_askable, by unfold LowerScheme; decide⟩

/-- The theorem applies to `put`, written so, and any text. -/
example (data : Bytes) : let _ := asciiCase
    ∃ out' said, noStdProgram (fun _ => some sampleUrl) b!"put" data b!"http://h/" (⟨[], 0, []⟩ : Sink) = (.ok (), out', some said) ∧
      sent out' = utf8 "hello world" ∧ RequestFor sampleUrl .Put data said := by
  intro _
  have := C107_prints (sink_reliable ⟨false⟩) (fun _ => some sampleUrl) b!"put" data b!"http://h/" .Put
    (by rw [methodName_bytes]; exact (sameText_iff_upper (by unfold AsciiText; decide) (by unfold AsciiText; decide)).2 (by decide))
    (by unfold AsciiText; decide) (.inr rfl) sampleUrl rfl sampleUrl_askable
    (by unfold LowerScheme; decide) ⟨[], 0, []⟩ (by simp)
  rw [if_pos rfl] at this
  exact this

/-- A standard output that takes three bytes and then fails, for `C107_output`. -/
example : let _ := asciiCase
    (match noStdProgram (fun _ => some sampleUrl) b!"Get" [] b!"http://h/" (⟨[], 0, [.accept 3, .fault (.io (.other 7))]⟩ : Sink) with
      | (.panic, out, some said) => decide (out.got = b!"hel" ∧ said.take 16 = b!"GET /p HTTP/1.1\r")
      | _ => false) = true := by
  decide +kernel

/-- What is printed and said for a GET. -/
example : let _ := asciiCase
    (match noStdProgram (fun _ => some sampleUrl) b!"Get" [] b!"http://h/" (⟨[], 0, []⟩ : Sink) with
      | (.ok (), out, some said) => decide (out.got = b!"hello world" ∧ said.take 16 = b!"GET /p HTTP/1.1\r")
      | _ => false) = true := by
  decide +kernel

end

end HttpIo
