import Verif.Props.Interchange
import Verif.Props.OneShot

/-! C182, C183, C184: conditional requests, and the status that answers an upload. -/

namespace HttpIo
open Spec

section
variable [CaseMap] {c : Cfg} {σ : Type} [LawfulReader σ] [ZeroReader σ] [LawfulWriter σ]

/-- Full statement: a request whose conditions are not met is refused and changes nothing (`C182_condition_false`,
`C182_range_false`). What holds: no header but those that frame the body has any effect. Of two requests to one of the file servers
with the same method, target and body, one with conditions and one without, both get the same answer and leave the same files. -/
theorem C182_ignored_partial {P : σ → Prop} (hra : ReadsApart σ) (hrel : Reliable c P) (hkept : ∀ s n, P s → P (read s n).2)
    (root : Bytes) (readDir : Fs → List Bytes → List Bytes) (errText : Err → Bytes) (s u : σ) (fs : Fs) (hs : P s) (hu : P u)
    (m : HttpMethod) (target : Bytes) (headers headers' : HttpHeaders) (ht : SendableTarget target)
    (hh : SendableHeaders headers.entries) (hl : LengthOk headers.entries)
    (hh' : SendableHeaders headers'.entries) (hl' : LengthOk headers'.entries) (t t' : List Ev)
    (hd : Delivers c (trace s) (requestHead m target headers.entries) t)
    (hd' : Delivers c (trace u) (requestHead m target headers'.entries) t')
    (hb : m = .Put ∨ m = .Post → ∃ bs rest rest', BodyThen c headers.entries t bs rest ∧ BodyThen c headers'.entries t' bs rest') :
    ∀ h, h = fileHandler c σ root errText ∨ h = listingHandler c σ readDir root errText → SameAnswer h errText s u fs := by
  have key : ∀ h : Handler c Fs σ Wire Err, OnlyReads h → ByBytes h → SameAnswer h errText s u fs := by
    intro h ho hby
    by_cases hm : m = .Put ∨ m = .Post
    · obtain ⟨bs, rest, rest', h1, h2⟩ := hb hm
      exact C179_upload hra hrel hkept h ho hby errText s u fs hs hu m target headers headers' ht hh hl hh' hl' t t' rest rest' bs hd hd' h1 h2
    · obtain ⟨r, s1, g1, g2, g3, _⟩ := C18_roundtrip c (BufReader.new c s) m target headers t ht hh hl (by rw [BufReader.trace_new]; exact hd)
      obtain ⟨r', u1, k1, k2, k3, _⟩ := C18_roundtrip c (BufReader.new c u) m target headers' t' ht hh' hl' (by rw [BufReader.trace_new]; exact hd')
      have ha : ∀ q : HttpRequest c (BufReader c σ), q.method = m → Acceptable q := fun q hq h => absurd (by rwa [hq] at h) hm
      obtain ⟨e1, e2⟩ := handled_bytes h hby errText fs g1 k1 (g2.trans k2.symm) (g3.trans k3.symm) (ha r g2) (ha r' k2)
        (fun h => absurd (by rwa [g2] at h) hm)
      exact same_answer hra hrel hkept h ho errText s u fs hs hu e1 e2
  rintro h (rfl | rfl)
  · exact key _ (fileHandler_onlyReads root errText) (C179_file root errText)
  · exact key _ (listingHandler_onlyReads readDir root errText) (C179_listing readDir root errText)

/-- Full statement: an upload that makes a file is answered with 201, one that replaces a file is not (`C183_created_false`). What
holds: a whole upload is answered with the same bytes, whatever was there, and if there was nothing there is a file now. -/
theorem C183_same_partial {P : σ → Prop} (hra : ReadsApart σ) (hrel : Reliable c P) (hkept : ∀ s n, P s → P (read s n).2)
    {fs : Fs} {root target : Bytes} {R cs p : List Bytes} (hR : RootAt fs root R) (ht : TargetText target cs)
    (h0 : (0 : UInt8) ∉ target) (hl : Leads fs R cs p) (hp : Storable fs p) (errText : Err → Bytes) (s : σ) (hs : P s)
    (r : HttpRequest c (BufReader c σ)) (s1 : BufReader c σ)
    (hd : HttpRequest.deserialize c (BufReader.new c s) = (.ok r, s1)) (hm : r.method = .Put) (hu : r.uri = target)
    (hf : framing r.body ≠ .tilClose) (bs : Bytes) (hy : Yields r.body bs) :
    ∃ d fs', (fileHandler c σ root errText).serveOne errText (.ok s) fs = (.ok (), some d, fs') ∧
      sent d = sent s ++ utf8 "HTTP/1.1 200 OK\r\n\r\n" ∧ fs' p = some (.file bs) ∧ ∀ q, q ≠ p → fs' q = fs q := by
  obtain ⟨⟨a, a1, a2, a3, a4, a5⟩, hst⟩ := C66_stored hR ht h0 hl hp errText s r s1 hd hm hu hf bs hy
  obtain ⟨g1, d, g2, _, g3⟩ := serve_succeeds hra hrel hkept (fileHandler c σ root errText) (fileHandler_onlyReads root errText)
    errText s fs hs a (.inl a1) a3 [] [] (by rw [trace_of_yields a5]; exact delivers_map c [] []) (by simp [Ended])
  rcases hx : (fileHandler c σ root errText).serveOne errText (.ok s) fs with ⟨x, y, z⟩
  rw [hx] at g1 g2 hst
  dsimp only at g1 g2 hst
  subst g1 g2 hst
  refine ⟨d, _, rfl, ?_, if_pos rfl, fun q hq => if_neg hq⟩
  rw [g3, a2, a4, show responseHead HttpStatus.OK.display [] = utf8 "HTTP/1.1 200 OK\r\n\r\n" by decide +kernel]
  simp

/-- As stated the property is false, for every upload that makes a file: the answer is not 201. -/
theorem C183_created_false {fs : Fs} {root target : Bytes} {R cs p : List Bytes} (hR : RootAt fs root R) (ht : TargetText target cs)
    (h0 : (0 : UInt8) ∉ target) (hl : Leads fs R cs p) (hp : fs p = none) (errText : Err → Bytes) (s : σ)
    (r : HttpRequest c (BufReader c σ)) (s1 : BufReader c σ)
    (hd : HttpRequest.deserialize c (BufReader.new c s) = (.ok r, s1)) (hm : r.method = .Put) (hu : r.uri = target)
    (hf : framing r.body ≠ .tilClose) (bs : Bytes) (hy : Yields r.body bs) :
    ∃ a, ((fileHandler c σ root errText).serveOneInner errText s fs).1 = .ok a ∧ a.status.toCode ≠ 201 ∧
      ((fileHandler c σ root errText).serveOne errText (.ok s) fs).2.2 p = some (.file bs) := by
  have hst : Storable fs p := by unfold Storable; simp [hp]
  obtain ⟨⟨a, a1, a2, _⟩, hst⟩ := C66_stored hR ht h0 hl hst errText s r s1 hd hm hu hf bs hy
  refine ⟨a, a1, ?_, by rw [hst]; exact if_pos rfl⟩
  rw [a2]; show (200 : UInt32) ≠ 201; decide

end

section
variable [CaseMap] {c : Cfg} {ω α ρ σ τ : Type} [LawfulReader ρ] [ZeroReader ρ] [LawfulWriter σ] [LawfulReader τ]

/-- Full statement: `client::put` succeeds exactly if the server says that the upload did, with a status from 200 to 299
(`C184_success_false`). What holds: it succeeds exactly for 200; every other status that says so is reported as an error, with that
status, from which a caller can still tell. -/
theorem C184_status_partial {P : σ → Prop} (hr : Reliable c P) (N : StreamConnector ω α (Duplex ρ σ))
    (url : Url) (host : Bytes) (hs : AsciiText url.scheme) (hu : PlainHttp url ∨ SecureHttp url) (hhost : url.host = some host)
    (body : τ) (bs : Bytes) (t' : List Ev) (hbody : Delivers c (trace body) bs t') (hend : Ended c t')
    (w w1 w2 : ω) (a : α) (d : Duplex ρ σ)
    (ha : N.toStreamAddr url w = (.ok a, w1)) (hc : N.connect a w1 = (.ok d, w2)) (hP : P d.wr)
    (status : HttpStatus) (headers : HttpHeaders) (rest : List Ev) (hh : SendableHeaders headers.entries)
    (hl : LengthOk headers.entries) (hd : Delivers c (trace d.rd) (responseHead status.display headers.entries) rest) :
    ((∃ x, (clientPut c N (some url) body w).1 = .ok x) ↔ status.toCode = 200) ∧
    ((∃ x, (clientPut c N (some url) body w).1 = .ok x) ∨ (∃ st, (clientPut c N (some url) body w).1 = .err (.unexpectedStatus st) ∧
      200 ≤ st.toCode ∧ st.toCode < 300) ↔ 200 ≤ status.toCode ∧ status.toCode < 300) := by
  obtain ⟨g1, g2⟩ := C43_put hr N url host hs hu hhost body bs t' hbody hend w w1 w2 a d ha hc hP status headers rest hh hl hd
  by_cases h : status.toCode = 200
  · obtain ⟨x, _, k, _⟩ := g1 h
    rw [k, h]
    exact ⟨⟨fun _ => rfl, fun _ => ⟨x, rfl⟩⟩, fun _ => by decide, fun _ => .inl ⟨x, rfl⟩⟩
  · obtain ⟨st, k, k1, _⟩ := g2 h
    rw [k]
    refine ⟨⟨?_, fun h' => absurd h' h⟩, ?_, ?_⟩
    · rintro ⟨x, hx⟩; simp at hx
    · rintro (⟨x, hx⟩ | ⟨st', hx, h1⟩)
      · simp at hx
      · simp only [Res.err.injEq, Err.unexpectedStatus.injEq] at hx; rw [← k1, hx]; exact h1
    · intro h1; exact .inr ⟨st, rfl, by rw [k1]; exact h1⟩

end

/-- As stated the property is false: `If-None-Match: *` asks not to replace a file, `If-Match: *` not to make one. -/
theorem C182_condition_false (c : Cfg) : let _ := asciiCase
    let put := fun (head : Bytes) => (fileHandler c (Duplex Wire Sink) b!"/srv" fun _ => []).serveOne (fun _ => [])
      (.ok (requestConn (head ++ b!"new"))) sampleFs
    let entries := [(b!"content-length", b!"3"), (b!"if-none-match", b!"*")]
    let entries' := [(b!"content-length", b!"3"), (b!"if-match", b!"*")]
    sampleFs [b!"srv", b!"a"] = some (.file b!"old") ∧ sampleFs [b!"srv", b!"b"] = none ∧
    (put (requestHead .Put b!"/a" entries)).2.1.map sent = some (utf8 "HTTP/1.1 200 OK\r\n\r\n") ∧
    (put (requestHead .Put b!"/a" entries)).2.2 [b!"srv", b!"a"] = some (.file b!"new") ∧
    (put (requestHead .Put b!"/b" entries')).2.1.map sent = some (utf8 "HTTP/1.1 200 OK\r\n\r\n") ∧
    (put (requestHead .Put b!"/b" entries')).2.2 [b!"srv", b!"b"] = some (.file b!"new") := by
  rcases c with ⟨_ | _⟩ <;> decide +kernel

/-- A part of a file, sent as such, replaces the whole. -/
theorem C182_range_false (c : Cfg) : let _ := asciiCase
    let put := fun (head : Bytes) => (fileHandler c (Duplex Wire Sink) b!"/srv" fun _ => []).serveOne (fun _ => [])
      (.ok (requestConn (head ++ b!"d"))) sampleFs
    let entries := [(b!"content-length", b!"1"), (b!"content-range", b!"bytes 2-2/3")]
    sampleFs [b!"srv", b!"a"] = some (.file b!"old") ∧
    (put (requestHead .Put b!"/a" entries)).2.1.map sent = some (utf8 "HTTP/1.1 200 OK\r\n\r\n") ∧
    (put (requestHead .Put b!"/a" entries)).2.2 [b!"srv", b!"a"] = some (.file b!"d") := by
  rcases c with ⟨_ | _⟩ <;> decide +kernel

/-- As stated the property is false: 201 and 204, with which servers answer an upload, are errors. -/
theorem C184_success_false (c : Cfg) : let _ := asciiCase
    let put := fun answer => (match clientPut c (planServer [] answer) (some sampleUrl) (Wire.mk [.data b!"a"]) () with
      | (.err e, _) => some e | _ => none)
    put b!"HTTP/1.1 200 OK\r\n\r\n" = none ∧
    put b!"HTTP/1.1 201 Created\r\n\r\n" = some (.unexpectedStatus .Created) ∧
    put b!"HTTP/1.1 204 No Content\r\n\r\n" = some (.unexpectedStatus .NoContent) := by
  rcases c with ⟨_ | _⟩ <;> decide +kernel

/-- Witness for `C182_ignored_partial`: an upload that is not to replace a file, and one that may. -/
example (c : Cfg) : let _ := asciiCase
    let s := requestConn (utf8 "PUT /a HTTP/1.1\r\ncontent-length: 3\r\nif-none-match: *\r\n\r\nnew")
    let u := requestConn (utf8 "PUT /a HTTP/1.1\r\ncontent-length: 3\r\n\r\nnew")
    SameAnswer (fileHandler c (Duplex Wire Sink) b!"/srv" fun _ => []) (fun _ => []) s u sampleFs := by
  intro inst s u
  have hhead : requestHead .Put b!"/a" [(b!"content-length", b!"3"), (b!"if-none-match", b!"*")] =
      b!"PUT /a HTTP/1.1\r\ncontent-length: 3\r\nif-none-match: *\r\n\r\n" := by
    decide +kernel
  have hhead' : requestHead .Put b!"/a" [(b!"content-length", b!"3")] = b!"PUT /a HTTP/1.1\r\ncontent-length: 3\r\n\r\n" := by
    decide +kernel
  have hlen : LengthText b!"3" 3 := lengthText_iff.1 (by decide +kernel)
  refine C182_ignored_partial duplex_readsApart (duplex_reliable (sink_reliable c)) (fun _ _ h => h) b!"/srv" (fun _ _ => [])
    (fun _ => []) s u sampleFs (by simp [s, requestConn]) (by simp [u, requestConn]) .Put b!"/a"
    ⟨[(b!"content-length", b!"3"), (b!"if-none-match", b!"*")]⟩ ⟨[(b!"content-length", b!"3")]⟩
    ⟨by simp, isText_ascii (by decide), by decide, by decide, by unfold HasCrLf; decide⟩
    ⟨by unfold SortedNames; decide, by decide +kernel, fun kv hkv => by
      simp only [List.mem_cons, List.not_mem_nil, or_false] at hkv
      rcases hkv with rfl | rfl
      · exact ⟨isText_ascii (by decide), by decide, by unfold HasCrLf; decide, by rw [← startsBlank_iff]; decide,
          isText_ascii (by decide), by unfold HasCrLf; decide⟩
      · exact ⟨isText_ascii (by decide), by decide, by unfold HasCrLf; decide, by rw [← startsBlank_iff]; decide,
          isText_ascii (by decide), by unfold HasCrLf; decide⟩⟩
    (fun v hv => by
      simp only [List.mem_cons, List.not_mem_nil, or_false, Prod.mk.injEq] at hv
      rcases hv with hv | hv
      · rw [hv.2]; exact ⟨3, hlen⟩
      · exact absurd hv.1 (by decide))
    ⟨by unfold SortedNames; decide, by decide +kernel, fun kv hkv => by
      simp only [List.mem_cons, List.not_mem_nil, or_false] at hkv
      rcases hkv with rfl
      exact ⟨isText_ascii (by decide), by decide, by unfold HasCrLf; decide, by rw [← startsBlank_iff]; decide,
        isText_ascii (by decide), by unfold HasCrLf; decide⟩⟩
    (fun v hv => by
      simp only [List.mem_cons, List.not_mem_nil, or_false, Prod.mk.injEq] at hv
      rw [hv.2]; exact ⟨3, hlen⟩) (b!"new".map .byte) (b!"new".map .byte) ?_ ?_
    (fun _ => ⟨b!"new", [], [], .limited (.limited (v := b!"3") (by decide) (by simp) hlen) (by simp),
      .limited (.limited (v := b!"3") (by decide) (by simp) hlen) (by simp)⟩) _ (.inl rfl)
  · have : trace s = b!"PUT /a HTTP/1.1\r\ncontent-length: 3\r\nif-none-match: *\r\n\r\n".map .byte ++ b!"new".map .byte := by
      decide +kernel
    rw [hhead, this]; exact delivers_map _ _ _
  · have : trace u = b!"PUT /a HTTP/1.1\r\ncontent-length: 3\r\n\r\n".map .byte ++ b!"new".map .byte := by decide +kernel
    rw [hhead', this]; exact delivers_map _ _ _

/-- Witness for `C183_same_partial` and `C183_created_false`: an upload that makes a file and one that replaces one. -/
example (c : Cfg) : let _ := asciiCase
    let conn := fun (target : Bytes) => requestConn (b!"PUT " ++ target ++ b!" HTTP/1.1\r\ncontent-length: 3\r\n\r\nnew")
    let server := fileHandler c (Duplex Wire Sink) b!"/srv" fun _ => []
    RootAt sampleFs b!"/srv" [b!"srv"] ∧ TargetText b!"/b" [b!"b"] ∧ Leads sampleFs [b!"srv"] [b!"b"] [b!"srv", b!"b"] ∧
    sampleFs [b!"srv", b!"b"] = none ∧
    (match HttpRequest.deserialize c (BufReader.new c (conn b!"/b")) with
      | (.ok r, _) => decide (r.uri = b!"/b" ∧ r.method = .Put ∧ framing r.body = .limited 3 ∧ trace r.body = b!"new".map .byte)
      | _ => false) = true ∧
    (∀ target ∈ [b!"/a", b!"/b"], (server.serveOne (fun _ => []) (.ok (conn target)) sampleFs).2.1.map sent =
      some (utf8 "HTTP/1.1 200 OK\r\n\r\n")) ∧
    (server.serveOne (fun _ => []) (.ok (conn b!"/b")) sampleFs).2.2 [b!"srv", b!"b"] = some (.file b!"new") := by
  intro inst conn server
  refine ⟨sampleFs_root, ⟨1, b!"b", rfl, by decide, splitPath_iff.2 (by decide)⟩, walk_iff.1 (by rfl), by decide, ?_⟩
  rcases c with ⟨_ | _⟩ <;> exact ⟨by decide +kernel, by decide +kernel, by decide +kernel⟩

/-- Witness for `C184_status_partial`: the answer 201. -/
example : let _ := asciiCase
    ¬ ∃ x, (clientPut ⟨false⟩ (oneServer b!"HTTP/1.1 201 Created\r\n\r\n") (some sampleUrl) (Wire.mk [.data b!"ab", .data b!"c"]) ()).1 =
      .ok x := by
  intro _
  have hu : SecureHttp sampleUrl := by
    unfold SecureHttp
    rw [utf8_https]
    exact sameText_refl _
  have ha : AsciiText sampleUrl.scheme := by rw [← isAscii_iff]; decide
  have hplan : ∀ a ∈ [WPlan.accept 2], (∃ n, a = .accept (n + 1)) ∨ ∃ e, a = .fault e ∧ Retried ⟨false⟩ e := by
    intro a ha; simp only [List.mem_cons, List.not_mem_nil, or_false] at ha; exact .inl ⟨1, ha⟩
  have hd : responseHead HttpStatus.Created.display [] = b!"HTTP/1.1 201 Created\r\n\r\n" := by decide +kernel
  have h := (@C184_status_partial asciiCase ⟨false⟩ _ _ _ _ _ _ _ _ _ _ (sink_reliable _)
    (oneServer b!"HTTP/1.1 201 Created\r\n\r\n") sampleUrl b!"h" ha (.inr hu) rfl (Wire.mk [.data b!"ab", .data b!"c"])
    b!"abc" [] (delivers_map _ b!"abc" []) (by intro e he; simp at he) () () () () _ rfl rfl hplan .Created ⟨[]⟩
    [] ⟨by simp [SortedNames], by simp, by simp⟩ (by intro v hv; simp at hv)
    (by rw [hd]; exact delivers_map _ b!"HTTP/1.1 201 Created\r\n\r\n" [])).1
  rw [h]; decide

end HttpIo
