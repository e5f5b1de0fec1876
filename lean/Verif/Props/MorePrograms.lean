import Verif.Props.Programs

/-! C109 and C110: `examples/advance_client.rs`, `examples/readme.rs`. -/

namespace HttpIo
open Spec

theorem defaultPort_unique [CaseMap] {url : Url} {p q : Nat} (ha : AsciiText url.scheme) (h1 : DefaultPort url p)
    (h2 : DefaultPort url q) : p = q := by
  unfold DefaultPort PlainHttp SecureHttp at h1 h2
  rw [utf8_http, utf8_https, sameText_lower ha _ (by decide) (by decide), sameText_lower ha _ (by decide) (by decide)] at h1 h2
  rcases h1 with ⟨h1, rfl⟩ | ⟨h1, rfl⟩ <;> rcases h2 with ⟨h2, rfl⟩ | ⟨h2, rfl⟩ <;> first | rfl | (rw [h1] at h2; simp at h2)

section
variable [CaseMap] {c : Cfg} {ω α σ φ ο : Type} [PeerSocket σ] [ZeroReader σ] [LawfulReader φ] [LawfulWriter ο]

/-- What the advanced client does, for http and https URLs alike: it connects to the URL's host and port, and if the server
there answers the request (that is, has received exactly the bytes of the request), the program prints the text of the
headers, a line feed, and the body of the response, whatever the status. -/
theorem C109_prints_partial {P : σ → Prop} (hr : Reliable c P) {Q : ο → Prop} (hq : Reliable c Q) (parse : Bytes → Option Url)
    (connect : Bytes → Nat → ω → Except Err σ × ω) (debug : HttpHeaders → Bytes) (text : Bytes) (url : Url)
    (hparse : parse text = some url) (hu : Askable url) (hlow : LowerScheme url) (host : Bytes) (hhost : url.host = some host)
    (port : Nat) (hport : url.port = some port ∨ url.port = none ∧ DefaultPort url port) (w w1 : ω) (s : σ)
    (hc : connect host port w = (.ok s, w1)) (hP : P s) (hw : wire s = sent s)
    (status : HttpStatus) (headers : HttpHeaders) (hh : SendableHeaders headers.entries) (hl : LengthOk headers.entries)
    (body : Bytes) (hans : AnswersRequest c (PeerSocket.peer s) (wire s) (PeerSocket.taken s) url .Get [] status headers
      fun t => WholeBody c headers.entries t body) (out : ο) (ho : Q out) :
    ∃ out', advanceClient c parse connect debug text w out = (.ok (), out', w1) ∧
      sent out' = sent out ++ debug headers ++ [10] ++ body := by
  obtain ⟨sch, h3, _⟩ := HttpUrl.tryFrom_ok hu.ascii hu.scheme hhost
  obtain ⟨p, h4, h5, h6, _⟩ := C40_port url _ hlow h3
  have hpp : p = port := by
    rcases hport with h | ⟨h, hd⟩
    · exact h5 _ h
    · exact defaultPort_unique hu.ascii (h6 h) hd
  subst hpp
  obtain ⟨b, o, o', s1, bytes, g1, g2, g3, g4, g5, g6, _, _, g7, g8⟩ := request_sent hr s hP hw ⟨false, url, [], []⟩
    ⟨hu.ascii, hu.scheme, hu.host, by simp [written], by simp [written]⟩
  rw [if_neg (by simp)] at g1
  dsimp only at g1 g3
  rw [perform] at g3
  simp only [Prod.mk.injEq, true_and] at g3
  subst g3
  have g5' : RequestFor url .Get [] bytes := by
    obtain ⟨host, j1, j2⟩ := g5
    exact ⟨host, j1, by simpa using j2⟩
  obtain ⟨evs, t, p1, p2, p3⟩ := hans bytes g5'
  have htr : trace s1 = evs := by
    have := PeerSocket.heard s1
    rw [g6, g7, g8, p1] at this
    exact List.append_cancel_left this
  rw [← htr] at p2
  obtain ⟨r, s2, f1, _, _, f3, f4, _, f6⟩ := response_delivered c s1 status headers t hh hl p2
  have hfin : o.finish = (.ok r, s2) := by unfold OutgoingRequest.finish; rw [g4]; exact f1
  obtain ⟨_, enc, len, hbody⟩ := response_under f1
  rw [hbody] at f4
  rw [← f6, ← BufReader.trace_new (c := c)] at p3
  obtain ⟨t', k1, k2⟩ := whole_body hh.1 f4 p3
  have hwr := hq.writeAll_ok out (debug headers ++ b!"\n") ho
  rcases hwo : writeAll c out (debug headers ++ b!"\n") with ⟨_ | _, out1⟩
  · rw [hwo] at hwr; simp at hwr
  have ho1 := hq.writeAll_next out (debug headers ++ b!"\n") ho
  rw [hwo] at ho1
  have hsent := LawfulWriter.writeAll_ok_sent hwo
  obtain ⟨body', out', k3, _, k4⟩ := printBody_ok hq ho1 k1 k2
  refine ⟨out', ?_, by rw [k4, hsent]; simp⟩
  unfold advanceClient HttpUrl.fromStr
  rw [hparse]; dsimp only
  rw [h3]; dsimp only
  rw [h4]; dsimp only
  rw [hc]; dsimp only
  rw [h3] at g1
  unfold HttpRequestBuilder.get
  rw [g1]; dsimp only
  rw [g2]; dsimp only
  rw [hfin]; dsimp only
  rw [f3, hwo]; dsimp only
  rw [hbody, k3]

omit [LawfulReader φ] in
/-- So for an https URL the program is content with a server at port 443 of the host that speaks no TLS: it sends its request
there in plain text, and prints what it is answered. -/
theorem C109_tls_false {P : σ → Prop} (hr : Reliable c P) {Q : ο → Prop} (hq : Reliable c Q) (parse : Bytes → Option Url)
    (connect : Bytes → Nat → ω → Except Err σ × ω) (debug : HttpHeaders → Bytes) (text : Bytes) (url : Url)
    (hparse : parse text = some url) (hlow : LowerScheme url) (hsec : SecureHttp url) (hport : url.port = none) (host : Bytes)
    (hhost : url.host = some host) (w w1 : ω) (s : σ) (hc : connect host 443 w = (.ok s, w1)) (hP : P s) (hw : wire s = sent s)
    (status : HttpStatus) (headers : HttpHeaders) (hh : SendableHeaders headers.entries) (hl : LengthOk headers.entries)
    (body : Bytes) (hans : AnswersRequest c (PeerSocket.peer s) (wire s) (PeerSocket.taken s) url .Get [] status headers
      fun t => WholeBody c headers.entries t body) (out : ο) (ho : Q out) :
    ∃ out', advanceClient c parse connect debug text w out = (.ok (), out', w1) ∧
      sent out' = sent out ++ debug headers ++ [10] ++ body :=
  C109_prints_partial hr hq parse connect debug text url hparse ⟨fun b hb => (hlow b hb).1, .inr hsec, host, hhost⟩ hlow host hhost 443
    (.inr ⟨hport, .inr ⟨hsec, rfl⟩⟩) w w1 s hc hP hw status headers hh hl body hans out ho

/-! ### C110 -/

/-- What `get` does with a response. -/
theorem get_runs {P : σ → Prop} (hr : Reliable c P) (N : StreamConnector ω α σ) (url : Url) (hu : Askable url) (w w1 w2 : ω) (a : α)
    (s : σ) (ha : N.toStreamAddr url w = (.ok a, w1)) (hc : N.connect a w1 = (.ok s, w2)) (hP : P s) (hw : wire s = sent s)
    (status : HttpStatus) (headers : HttpHeaders) (hh : SendableHeaders headers.entries) (hl : LengthOk headers.entries)
    (R : List Ev → Prop)
    (hans : AnswersRequest c (PeerSocket.peer s) (wire s) (PeerSocket.taken s) url .Get [] status headers R) :
    (status.toCode = 200 → ∃ enc len s2, clientGet c N (some url) w = (.ok (HttpBody.new c enc len (BufReader.new c s2)), w2) ∧
      FramedBy headers.entries (framing (HttpBody.new c enc len (BufReader.new c s2))) ∧ R (trace s2)) ∧
    (status.toCode ≠ 200 → ∃ st, clientGet c N (some url) w = (.err (.unexpectedStatus st), w2) ∧ st.toCode = status.toCode) := by
  obtain ⟨b, o, o', s1, bytes, h1, h2, h3, h4, h5, h6, _, _, h7, h8⟩ := request_sent hr s hP hw ⟨false, url, [], []⟩
    ⟨hu.ascii, hu.scheme, hu.host, by simp [written], by simp [written]⟩
  rw [if_neg (by simp)] at h1
  dsimp only at h1 h3
  rw [perform] at h3
  simp only [Prod.mk.injEq, true_and] at h3
  subst h3
  have h5' : RequestFor url .Get [] bytes := by
    obtain ⟨host, j1, j2⟩ := h5
    exact ⟨host, j1, by simpa using j2⟩
  have hcl : clientGet c N (some url) w = sendRequest c N b url EmptyReader.mk w := by
    unfold clientGet HttpRequestBuilder.get
    dsimp only
    rw [h1]
  obtain ⟨g1, g2⟩ := answered ha hc hh hl hans h2 (copy_empty o 0) h4 h5' h6 h7 h8
  rw [hcl]
  exact ⟨g1, fun h => let ⟨st, e1, e2, _⟩ := g2 h; ⟨st, e1, e2⟩⟩

/-- What `put` does with a response. -/
theorem put_runs {P : σ → Prop} (hr : Reliable c P) (N : StreamConnector ω α σ) (url : Url) (hu : Askable url) (w w1 w2 : ω) (a : α)
    (s : σ) (ha : N.toStreamAddr url w = (.ok a, w1)) (hc : N.connect a w1 = (.ok s, w2)) (hP : P s) (hw : wire s = sent s)
    (status : HttpStatus) (headers : HttpHeaders) (hh : SendableHeaders headers.entries) (hl : LengthOk headers.entries)
    (R : List Ev → Prop) (file : φ) (up : Bytes) (t' : List Ev) (hd : Delivers c (trace file) up t') (he : Ended c t')
    (hans : AnswersRequest c (PeerSocket.peer s) (wire s) (PeerSocket.taken s) url .Put up status headers R) :
    (status.toCode = 200 → ∃ body, clientPut c N (some url) file w = (.ok body, w2)) ∧
    (status.toCode ≠ 200 → ∃ st, clientPut c N (some url) file w = (.err (.unexpectedStatus st), w2) ∧ st.toCode = status.toCode) := by
  obtain ⟨b, o, k, body', o', s1, bytes, h1, h2, h3, h4, h5, h6, h7, h8⟩ := put_sent hr hP hw hu hd he
  have hcl : clientPut c N (some url) file w = sendRequest c N b url file w := by
    unfold clientPut HttpRequestBuilder.put
    dsimp only
    rw [h1]
  obtain ⟨g1, g2⟩ := answered ha hc hh hl hans h2 h3 h4 h5 h6 h7 h8
  rw [hcl]
  exact ⟨fun h => let ⟨_, _, _, e1, _⟩ := g1 h; ⟨_, e1⟩, fun h => let ⟨st, e1, e2, _⟩ := g2 h; ⟨st, e1, e2⟩⟩

/-- The program of the README: if the first server answers with status code 200, it prints exactly the body of the answer;
then, on a second connection, it sends exactly the content of the file, and succeeds if the second server (which has received
just this) answers with status code 200, whatever the body. With any other status it fails with that status: of the first
server, before anything is printed or the file is sent; of the second, though the file was sent. -/
theorem C110_readme {P : σ → Prop} (hr : Reliable c P) {Q : ο → Prop} (hq : Reliable c Q) (N : StreamConnector ω α σ)
    (url url' : Url) (hu : Askable url) (hu' : Askable url') (file : φ) (up : Bytes) (t' : List Ev)
    (hd : Delivers c (trace file) up t') (he : Ended c t') (w w1 w2 w3 w4 : ω) (a a' : α) (s s' : σ)
    (ha : N.toStreamAddr url w = (.ok a, w1)) (hc : N.connect a w1 = (.ok s, w2)) (hP : P s) (hw : wire s = sent s)
    (ha' : N.toStreamAddr url' w2 = (.ok a', w3)) (hc' : N.connect a' w3 = (.ok s', w4)) (hP' : P s') (hw' : wire s' = sent s')
    (status status' : HttpStatus) (headers headers' : HttpHeaders) (hh : SendableHeaders headers.entries)
    (hl : LengthOk headers.entries) (hh' : SendableHeaders headers'.entries) (hl' : LengthOk headers'.entries) (body : Bytes)
    (hans : AnswersRequest c (PeerSocket.peer s) (wire s) (PeerSocket.taken s) url .Get [] status headers
      fun t => WholeBody c headers.entries t body)
    (hans' : AnswersRequest c (PeerSocket.peer s') (wire s') (PeerSocket.taken s') url' .Put up status' headers' fun _ => True)
    (out : ο) (ho : Q out) :
    (status.toCode ≠ 200 → ∃ st, readmeProgram c N (some url) (some url') (.ok file) w out = (.err (.unexpectedStatus st), out, w2) ∧
      st.toCode = status.toCode) ∧
    (status.toCode = 200 → ∃ out', sent out' = sent out ++ body ∧
      (status'.toCode = 200 → readmeProgram c N (some url) (some url') (.ok file) w out = (.ok (), out', w4)) ∧
      (status'.toCode ≠ 200 → ∃ st, readmeProgram c N (some url) (some url') (.ok file) w out =
        (.err (.unexpectedStatus st), out', w4) ∧ st.toCode = status'.toCode)) := by
  obtain ⟨g1, g2⟩ := get_runs hr N url hu w w1 w2 a s ha hc hP hw status headers hh hl _ hans
  obtain ⟨f1, f2⟩ := put_runs hr N url' hu' w2 w3 w4 a' s' ha' hc' hP' hw' status' headers' hh' hl' _ file up t' hd he hans'
  refine ⟨fun h => ?_, fun h => ?_⟩
  · obtain ⟨st, e1, e2⟩ := g2 h
    exact ⟨st, by unfold readmeProgram; rw [e1], e2⟩
  · obtain ⟨enc, len, s2, e1, e2, e3⟩ := g1 h
    rw [← BufReader.trace_new (c := c)] at e3
    obtain ⟨t', k1, k2⟩ := whole_body hh.1 e2 e3
    obtain ⟨body', out', k3, _, k4⟩ := printBody_ok hq ho k1 k2
    refine ⟨out', k4, fun h' => ?_, fun h' => ?_⟩
    · obtain ⟨b, e4⟩ := f1 h'
      unfold readmeProgram
      rw [e1]; dsimp only
      rw [k3]; dsimp only
      rw [e4]
    · obtain ⟨st, e4, e5⟩ := f2 h'
      refine ⟨st, ?_, e5⟩
      unfold readmeProgram
      rw [e1]; dsimp only
      rw [k3]; dsimp only
      rw [e4]

end

/-- Witness for `C109_prints_partial` and `C109_tls_false`: `https://h/p`, answered in plain text with two bytes. -/
example (c : Cfg) : let _ := asciiCase
    let s := oneReply (responseHead (HttpStatus.display .NotFound) [(b!"content-length", b!"3")] ++ b!"hi!") none
    ∃ out', advanceClient c (fun _ => some { sampleUrl with port := none })
        (fun host port w => if host = b!"h" ∧ port = 443 then (.ok s, w) else (.error .other, w)) (fun _ => b!"headers") b!"https://h/p" ()
        (Sink.mk [] 0 []) = (.ok (), out', ()) ∧
      sent out' = b!"headers\nhi!" := by
  intro _ s
  refine C109_tls_false (talker_reliable c none) (sink_reliable c) _ _ _ b!"https://h/p" { sampleUrl with port := none } rfl
    (by unfold LowerScheme; decide) (by unfold SecureHttp; rw [utf8_https]; exact sameText_refl _) rfl b!"h" rfl () () s rfl
    (oneReply_fine _ none c) rfl .NotFound ⟨[(b!"content-length", b!"3")]⟩ lengthHeader_sendable
    (FramedBy.lengthOk lengthHeader_sendable.1 (.limited (v := b!"3") (n := 3) (by simp) (by simp) (lengthText_iff.1 (by decide))))
    b!"hi!" ?_ (Sink.mk [] 0 []) (by simp)
  exact oneReply_answers c none .NotFound ⟨[(b!"content-length", b!"3")]⟩ b!"hi!" _ _ _ _
    (.limited (rest := []) (.limited (v := b!"3") (by simp) (by simp) (lengthText_iff.1 (by decide))) (delivers_map c _ _))

/-- Witness for `C110_readme`: a file of any content; the second server answers `201`, which the program takes for a failure. -/
example (c : Cfg) (file : Bytes) : let _ := asciiCase
    let s := oneReply (responseHead (HttpStatus.display .OK) [(b!"content-length", b!"3")] ++ b!"hi!") none
    let s' := oneReply (responseHead (HttpStatus.display .Created) [(b!"content-length", b!"3")] ++ b!"yo!") none
    ∃ out' st, readmeProgram c (⟨fun a w => (.ok (if a then s else s'), w), fun _ w => (.ok (w = 0), w + 1)⟩ :
        StreamConnector Nat Bool Talker) (some sampleUrl) (some sampleUrl) (.ok (SliceReader.mk file)) 0 (Sink.mk [] 0 []) =
        (.err (.unexpectedStatus st), out', 2) ∧
      out'.got = b!"hi!" ∧ st.toCode = 201 := by
  intro _ s s'
  have hl := FramedBy.lengthOk lengthHeader_sendable.1
    (.limited (v := b!"3") (n := 3) (by simp) (by simp) (lengthText_iff.1 (by decide)))
  obtain ⟨out', h1, _, h3⟩ := (C110_readme (talker_reliable c none) (sink_reliable c) (⟨fun a w => (.ok (if a then s else s'), w), fun _ w => (.ok (w = 0), w + 1)⟩ :
        StreamConnector Nat Bool Talker) sampleUrl sampleUrl sampleUrl_askable
    sampleUrl_askable (SliceReader.mk file) file [] (by show Delivers c (file.map .byte) _ _; exact delivers_map' _ file) (by simp [Ended])
    0 1 1 2 2 true false s s' rfl rfl (oneReply_fine _ none c) rfl rfl rfl (oneReply_fine _ none c) rfl .OK .Created
    ⟨[(b!"content-length", b!"3")]⟩ ⟨[(b!"content-length", b!"3")]⟩ lengthHeader_sendable hl lengthHeader_sendable hl b!"hi!"
    (oneReply_answers c none .OK ⟨[(b!"content-length", b!"3")]⟩ b!"hi!" _ _ _ _
      (.limited (rest := []) (.limited (v := b!"3") (by simp) (by simp) (lengthText_iff.1 (by decide))) (delivers_map c _ _)))
    (oneReply_answers c none .Created ⟨[(b!"content-length", b!"3")]⟩ b!"yo!" _ _ _ _ trivial) (Sink.mk [] 0 []) (by simp)).2 rfl
  obtain ⟨st, h4, h5⟩ := h3 (by decide)
  exact ⟨out', st, h4, h1, h5⟩

end HttpIo
