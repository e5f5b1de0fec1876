import Verif.Spec.Interchange
import Verif.Props.Conventions
import Verif.Props.Listing
import Verif.Props.TestServer

/-! C179: a body is the same however it is framed. -/

namespace HttpIo
open Spec

section
variable [CaseMap] {c : Cfg} {η σ ρ ε : Type} [LawfulReader σ] [ZeroReader σ] [LawfulWriter σ] [LawfulReader ρ] [ZeroReader ρ]

omit [LawfulWriter σ] [LawfulReader ρ] [ZeroReader ρ] in
theorem handled_bytes (h : Handler c η σ ρ ε) (hb : ByBytes h) (errText : Err → Bytes) {s u : σ} (self : η)
    {r r' : HttpRequest c (BufReader c σ)} {s1 u1 : BufReader c σ}
    (hs : HttpRequest.deserialize c (BufReader.new c s) = (.ok r, s1))
    (hu : HttpRequest.deserialize c (BufReader.new c u) = (.ok r', u1))
    (hm : r.method = r'.method) (huri : r.uri = r'.uri) (ha : Acceptable r) (ha' : Acceptable r')
    (hbody : r.method = .Put ∨ r.method = .Post → trace r.body = trace r'.body) :
    (h.serveOneInner errText s self).1 = (h.serveOneInner errText u self).1 ∧
    (h.serveOneInner errText s self).2.2 = (h.serveOneInner errText u self).2.2 := by
  rw [serveOneInner_handled h errText self hs ha, serveOneInner_handled h errText self hu ha', ← hm, ← huri]
  dsimp only
  cases hmm : r.method with
  | Put =>
    obtain ⟨e3, e4⟩ := hb.put r.uri _ _ self (hbody (.inl hmm))
    dsimp only [handled]
    rw [e3, e4]; exact ⟨rfl, rfl⟩
  | Post =>
    obtain ⟨e3, e4⟩ := hb.post r.uri _ _ self (hbody (.inr hmm))
    dsimp only [handled]
    rw [e3, e4]; exact ⟨rfl, rfl⟩
  | _ => exact ⟨rfl, rfl⟩

/-- Two requests with the same method, target and body get the same answer and leave the same state, whatever their headers are and
however each frames its body: with a length, or in chunks cut and written in whatever way. -/
theorem C179_upload {P : σ → Prop} (hra : ReadsApart σ) (hrel : Reliable c P) (hkept : ∀ s n, P s → P (read s n).2)
    (h : Handler c η σ ρ ε) (ho : OnlyReads h) (hb : ByBytes h) (errText : Err → Bytes) (s u : σ) (self : η) (hs : P s) (hu : P u)
    (m : HttpMethod) (target : Bytes) (headers headers' : HttpHeaders) (ht : SendableTarget target)
    (hh : SendableHeaders headers.entries) (hl : LengthOk headers.entries)
    (hh' : SendableHeaders headers'.entries) (hl' : LengthOk headers'.entries) (t t' rest rest' : List Ev) (bs : Bytes)
    (hd : Delivers c (trace s) (requestHead m target headers.entries) t)
    (hd' : Delivers c (trace u) (requestHead m target headers'.entries) t')
    (hbs : BodyThen c headers.entries t bs rest) (hbs' : BodyThen c headers'.entries t' bs rest') :
    SameAnswer h errText s u self := by
  have hacc : ∀ {s : σ} {r : HttpRequest c (BufReader c σ)} {headers : HttpHeaders} {t rest : List Ev},
      SendableHeaders headers.entries → BodyThen c headers.entries t bs rest → FramedBy headers.entries (framing r.body) → Acceptable r := by
    intro s r headers t rest hh hbs hf _ hc
    cases hbs with
    | chunked _ _ h1 _ _ _ _ => rw [framedBy_unique hh.1 hf h1] at hc; simp at hc
    | limited h1 _ => rw [framedBy_unique hh.1 hf h1] at hc; simp at hc
  obtain ⟨r, s1, g1, g2, g3, g4, g5⟩ := bodyThen_trace ht hh hl hd hbs
  obtain ⟨r', u1, k1, k2, k3, k4, k5⟩ := bodyThen_trace ht hh' hl' hd' hbs'
  obtain ⟨e1, e2⟩ := handled_bytes h hb errText self g1 k1 (g2.trans k2.symm) (g3.trans k3.symm) (hacc (s := s) hh hbs g4)
    (hacc (s := u) hh' hbs' k4) (fun _ => g5.trans k5.symm)
  exact same_answer hra hrel hkept h ho errText s u self hs hu e1 e2

omit [LawfulWriter σ] in
/-- Both file servers are such handlers, and so is the handler of the crate's tests. -/
theorem C179_file (root : Bytes) (errText : Err → Bytes) : ByBytes (fileHandler c σ root errText) :=
  ⟨fun uri body body' fs ht => put_byContent root uri body body' fs ht, fun _ _ _ _ _ => ⟨rfl, rfl⟩⟩

omit [LawfulWriter σ] in
theorem C179_listing (readDir : Fs → List Bytes → List Bytes) (root : Bytes) (errText : Err → Bytes) :
    ByBytes (listingHandler c σ readDir root errText) :=
  ⟨fun uri body body' fs ht => put_byContent root uri body body' fs ht, fun _ _ _ _ _ => ⟨rfl, rfl⟩⟩

omit [LawfulWriter σ] in
theorem C179_test : ByBytes (testHandler c σ) := by
  refine ⟨fun uri body body' script ht => ?_, fun _ _ _ _ _ => ⟨rfl, rfl⟩⟩
  show (TestRequestHandler.put uri body script).1 = (TestRequestHandler.put uri body' script).1 ∧
    (TestRequestHandler.put uri body script).2.2 = (TestRequestHandler.put uri body' script).2.2
  unfold TestRequestHandler.put
  cases script with
  | nil => exact ⟨rfl, rfl⟩
  | cons e script =>
    dsimp only
    split
    · exact ⟨rfl, rfl⟩
    split
    · exact ⟨rfl, rfl⟩
    obtain ⟨h1, x, h2, h3⟩ := copy_by_trace (sink_reliable c) (sink_reliable c) ht (s := Sink.mk [] 0 []) (u := Sink.mk [] 0 [])
      (by simp) (by simp) 0
    rcases hc : copy c body (Sink.mk [] 0 []) 0 with ⟨a | a, b, s2⟩ <;> rcases hc' : copy c body' (Sink.mk [] 0 []) 0 with ⟨a' | a', b', u2⟩ <;>
      rw [hc] at h1 h2 <;> rw [hc'] at h1 h3 <;> simp only [reduceCtorEq, Except.error.injEq] at h1 <;> dsimp only at h2 h3 ⊢
    · exact ⟨rfl, rfl⟩
    · have hg : s2.got = u2.got := h2.trans h3.symm
      rw [hg]
      split
      · exact ⟨rfl, rfl⟩
      split <;> exact ⟨rfl, rfl⟩

end

section
variable [CaseMap] {c : Cfg} {ω α ρ σ : Type} [LawfulReader ρ] [ZeroReader ρ] [LawfulWriter σ]

/-- What a body over a stream delivers if its content is there as the headers announce. -/
theorem wholeContent_trace {entries : List (Bytes × Bytes)} (hs : SortedNames entries) {bs : Bytes} (enc : Option Bytes) (len : Option Nat)
    (u : ρ) (hf : FramedBy entries (framing (HttpBody.new c enc len u))) (hc : WholeContent c entries (trace u) bs) :
    trace (HttpBody.new c enc len u) = bs.map .byte := by
  obtain ⟨f1, f2, f3⟩ := framed_trace (c := c) enc len u
  cases hc with
  | delimited rest hb =>
    cases hb with
    | chunked chs last h1 h2 h3 h4 h5 =>
      obtain ⟨_, k⟩ := f1 (framedBy_unique hs hf h1)
      rw [k, ← h5]
      exact trace_of_yields (C24_decode c len u chs last rest h2 h3 h4).1
    | limited h1 h2 =>
      rw [f2 _ (framedBy_unique hs hf h1), h2]
      exact (limitTrace_more bs.length bs (Nat.le_refl _) rest).trans (by rw [List.take_length])
  | tilClose h1 h2 => rw [f3 (framedBy_unique hs hf h1), h2]

omit [ZeroReader ρ] in
theorem clientGet_body (N : StreamConnector ω α (Duplex ρ σ)) (url : Url) (w w2 : ω) (x : HttpBody c (BufReader c (Duplex ρ σ)))
    (h : clientGet c N (some url) w = (.ok x, w2)) :
    ∃ enc len u, x = HttpBody.new c enc len (BufReader.new c u) ∧ x.under = some (BufReader.new c u) := by
  unfold clientGet at h
  dsimp only at h
  rcases hb : HttpRequestBuilder.get c (HttpUrl.tryFrom url) with b | e | _ <;> rw [hb] at h <;>
    simp only [Prod.mk.injEq, reduceCtorEq, false_and] at h
  obtain ⟨_, _, _, _, d'', r, _, _, _, h4, _, h6⟩ := sendRequest_only N b url EmptyReader.mk w w2 x h
  obtain ⟨k1, enc, len, k2⟩ := response_under h4
  exact ⟨enc, len, d'', by rw [h6, k2], by rw [h6, k1]⟩

/-- Two answers with status 200 and the same content give the same download, whatever their headers are and however each frames
it: with a length, in chunks, or with the end of the connection. -/
theorem C179_download {P : σ → Prop} (hr : Reliable c P) (N N' : StreamConnector ω α (Duplex ρ σ))
    (url : Url) (host : Bytes) (hs : AsciiText url.scheme) (hu : PlainHttp url ∨ SecureHttp url) (hhost : url.host = some host)
    (w w1 w2 w1' w2' : ω) (a a' : α) (d d' : Duplex ρ σ)
    (ha : N.toStreamAddr url w = (.ok a, w1)) (hc : N.connect a w1 = (.ok d, w2)) (hP : P d.wr)
    (ha' : N'.toStreamAddr url w = (.ok a', w1')) (hc' : N'.connect a' w1' = (.ok d', w2')) (hP' : P d'.wr)
    (headers headers' : HttpHeaders) (t t' : List Ev) (bs : Bytes)
    (hh : SendableHeaders headers.entries) (hl : LengthOk headers.entries)
    (hh' : SendableHeaders headers'.entries) (hl' : LengthOk headers'.entries)
    (hd : Delivers c (trace d.rd) (responseHead (utf8 "200 OK") headers.entries) t)
    (hd' : Delivers c (trace d'.rd) (responseHead (utf8 "200 OK") headers'.entries) t')
    (hb : WholeContent c headers.entries t bs) (hb' : WholeContent c headers'.entries t' bs) :
    ∃ x x', clientGet c N (some url) w = (.ok x, w2) ∧ clientGet c N' (some url) w = (.ok x', w2') ∧ Yields x bs ∧ Yields x' bs := by
  have key : ∀ (N : StreamConnector ω α (Duplex ρ σ)) (w1 w2 : ω) (a : α) (d : Duplex ρ σ), N.toStreamAddr url w = (.ok a, w1) →
      N.connect a w1 = (.ok d, w2) → P d.wr → ∀ (headers : HttpHeaders) (t : List Ev), SendableHeaders headers.entries →
      LengthOk headers.entries → Delivers c (trace d.rd) (responseHead (utf8 "200 OK") headers.entries) t →
      WholeContent c headers.entries t bs → ∃ x, clientGet c N (some url) w = (.ok x, w2) ∧ Yields x bs := by
    intro N w1 w2 a d ha hc hP headers t hh hl hd hb
    have hok : utf8 "200 OK" = HttpStatus.OK.display := by decide +kernel
    rw [hok] at hd
    obtain ⟨x, d1, g1, g2, g3, g4, _⟩ := (C43_get hr N url host hs hu hhost w w1 w2 a d ha hc hP .OK headers t hh hl hd).1 rfl
    refine ⟨x, g1, yields_of_trace ?_⟩
    obtain ⟨enc, len, e⟩ := clientGet_body N url w w2 x g1
    obtain ⟨u, e⟩ := e
    have hu' : x.under = some (BufReader.new c u) := e.2
    rw [g3] at hu'
    simp only [Option.some.injEq] at hu'
    rw [← hu'] at e
    rw [e.1] at g2 ⊢
    exact wholeContent_trace hh.1 enc len _ g2 (by rw [BufReader.trace_new]; show WholeContent c _ (trace d1.rd) bs; rw [g4]; exact hb)
  obtain ⟨x, g1, g2⟩ := key N w1 w2 a d ha hc hP headers t hh hl hd hb
  obtain ⟨x', k1, k2⟩ := key N' w1' w2' a' d' ha' hc' hP' headers' t' hh' hl' hd' hb'
  exact ⟨x, x', g1, k1, g2, k2⟩

end

/-- Witness for `C179_upload`: the same upload with a length, and in two chunks, the first with a padded size. -/
example (c : Cfg) : let _ := asciiCase
    let s := requestConn (utf8 "PUT /a HTTP/1.1\r\ncontent-length: 3\r\n\r\nnew")
    let u := requestConn (utf8 "PUT /a HTTP/1.1\r\ntransfer-encoding: chunked\r\n\r\n02\r\nne\r\n1\r\nw\r\n0\r\n\r\n")
    let server := fileHandler c (Duplex Wire Sink) b!"/srv" fun _ => []
    SameAnswer server (fun _ => []) s u sampleFs ∧
      (server.serveOne (fun _ => []) (.ok s) sampleFs).2.2 [b!"srv", b!"a"] = some (.file (utf8 "new")) := by
  intro inst s u server
  have hhead : requestHead .Put b!"/a" [(b!"content-length", b!"3")] = b!"PUT /a HTTP/1.1\r\ncontent-length: 3\r\n\r\n" := by
    decide +kernel
  have hhead' : requestHead .Put b!"/a" [(b!"transfer-encoding", b!"chunked")] =
      b!"PUT /a HTTP/1.1\r\ntransfer-encoding: chunked\r\n\r\n" := by
    decide +kernel
  have hlen : LengthText b!"3" 3 := lengthText_iff.1 (by decide +kernel)
  have hf : FramedBy [(b!"content-length", b!"3")] (.limited b!"new".length) :=
    .limited (v := b!"3") (by decide) (by simp) hlen
  have hhex : ∀ (t : Bytes) (n : Nat), parseHex64 t = .ok n → UnsignedText 16 t n := fun t n h => ((C07_hex_parse t n).1 h).1
  refine ⟨C179_upload duplex_readsApart (duplex_reliable (sink_reliable c)) (fun _ _ h => h) server
    (fileHandler_onlyReads b!"/srv" fun _ => []) (C179_file _ _) (fun _ => []) s u sampleFs
    (by simp [s, requestConn]) (by simp [u, requestConn]) .Put b!"/a" ⟨[(b!"content-length", b!"3")]⟩
    ⟨[(b!"transfer-encoding", b!"chunked")]⟩
    ⟨by simp, isText_ascii (by decide), by decide, by decide, by unfold HasCrLf; decide⟩
    ⟨by unfold SortedNames; decide, by decide +kernel, fun kv hkv => by
      simp only [List.mem_cons, List.not_mem_nil, or_false] at hkv
      rcases hkv with rfl
      exact ⟨isText_ascii (by decide), by decide, by unfold HasCrLf; decide, by rw [← startsBlank_iff]; decide,
        isText_ascii (by decide), by unfold HasCrLf; decide⟩⟩
    (fun v hv => by
      simp only [List.mem_cons, List.not_mem_nil, or_false, Prod.mk.injEq] at hv
      rw [hv.2]; exact ⟨3, hlen⟩)
    ⟨by unfold SortedNames; decide, by decide +kernel, fun kv hkv => by
      simp only [List.mem_cons, List.not_mem_nil, or_false] at hkv
      rcases hkv with rfl
      exact ⟨isText_ascii (by decide), by decide, by unfold HasCrLf; decide, by rw [← startsBlank_iff]; decide,
        isText_ascii (by decide), by unfold HasCrLf; decide⟩⟩
    (fun v hv => by
      simp only [List.mem_cons, List.not_mem_nil, or_false, Prod.mk.injEq] at hv
      exact absurd hv.1 (by decide)) (b!"new".map .byte) (b!"02\r\nne\r\n1\r\nw\r\n0\r\n\r\n".map .byte) []
    (b!"\r\n".map .byte) b!"new" ?_ ?_ (.limited hf (by simp))
    (.chunked [⟨b!"02", b!"ne", [13, 10]⟩, ⟨b!"1", b!"w", [13, 10]⟩] b!"0" (.chunked (by simp)) ?_ (hhex _ _ (by decide +kernel)) ?_
      (by decide)), ?_⟩
  · have : trace s = b!"PUT /a HTTP/1.1\r\ncontent-length: 3\r\n\r\n".map .byte ++ b!"new".map .byte := by decide +kernel
    rw [hhead, this]; exact delivers_map _ _ _
  · have : trace u = b!"PUT /a HTTP/1.1\r\ntransfer-encoding: chunked\r\n\r\n".map .byte ++
        b!"02\r\nne\r\n1\r\nw\r\n0\r\n\r\n".map .byte := by decide +kernel
    rw [hhead', this]; exact delivers_map _ _ _
  · intro ch hch
    simp only [List.mem_cons, List.not_mem_nil, or_false] at hch
    rcases hch with rfl | rfl
    · exact ⟨⟨hhex _ _ (by decide +kernel), by decide, by decide, rfl⟩, rfl⟩
    · exact ⟨⟨hhex _ _ (by decide +kernel), by decide, by decide, rfl⟩, rfl⟩
  · exact .chunk (t1 := b!"\r\n1\r\nw\r\n0\r\n\r\n".map .byte) (t2 := b!"1\r\nw\r\n0\r\n\r\n".map .byte)
      (delivers_map c b!"02\r\n" _) (delivers_map c b!"\r\n" _)
      (.chunk (t1 := b!"\r\n0\r\n\r\n".map .byte) (t2 := b!"0\r\n\r\n".map .byte)
        (delivers_map c b!"1\r\n" _) (delivers_map c b!"\r\n" _) (.last (delivers_map c b!"0\r\n" _)))
  · rcases c with ⟨_ | _⟩ <;> decide +kernel

/-- Witness for `C179_download`: the same content in all three ways. -/
example (c : Cfg) : WholeContent c [(b!"content-length", b!"3")] (b!"new".map .byte) b!"new" ∧
    WholeContent c [(b!"transfer-encoding", b!"chunked")] (b!"2\r\nne\r\n01\r\nw\r\n0\r\n\r\n".map .byte) b!"new" ∧
    WholeContent c [] (b!"new".map .byte) b!"new" := by
  have hhex : ∀ (t : Bytes) (n : Nat), parseHex64 t = .ok n → UnsignedText 16 t n := fun t n h => ((C07_hex_parse t n).1 h).1
  refine ⟨.delimited [] (.limited (.limited (v := b!"3") (by decide) (by simp) (lengthText_iff.1 (by decide +kernel))) (by simp)),
    .delimited (b!"\r\n".map .byte) (.chunked [⟨b!"2", b!"ne", [13, 10]⟩, ⟨b!"01", b!"w", [13, 10]⟩] b!"0" (.chunked (by simp)) ?_
      (hhex _ _ (by decide +kernel)) ?_ (by decide)), .tilClose (.tilClose (by simp) (by simp)) rfl⟩
  · intro ch hch
    simp only [List.mem_cons, List.not_mem_nil, or_false] at hch
    rcases hch with rfl | rfl
    · exact ⟨⟨hhex _ _ (by decide +kernel), by decide, by decide, rfl⟩, rfl⟩
    · exact ⟨⟨hhex _ _ (by decide +kernel), by decide, by decide, rfl⟩, rfl⟩
  · exact .chunk (t1 := b!"\r\n01\r\nw\r\n0\r\n\r\n".map .byte) (t2 := b!"01\r\nw\r\n0\r\n\r\n".map .byte)
      (delivers_map c b!"2\r\n" _) (delivers_map c b!"\r\n" _)
      (.chunk (t1 := b!"\r\n0\r\n\r\n".map .byte) (t2 := b!"0\r\n\r\n".map .byte)
        (delivers_map c b!"01\r\n" _) (delivers_map c b!"\r\n" _) (.last (delivers_map c b!"0\r\n" _)))

end HttpIo
