import Verif.Props.Listing
import Verif.Props.Desync

/-! C126: the file server of `examples/server.rs` when another process changes the files. -/

namespace HttpIo
open Spec

section
variable [CaseMap] {c : Cfg} {σ : Type} [LawfulReader σ] [ZeroReader σ] [LawfulWriter σ]

/-- What is sent in answer to a GET, from what the handler's `get` returns. -/
theorem getSends_of {P : σ → Prop} (hra : ReadsApart σ) (hrel : Reliable c P) (hkept : ∀ s n, P s → P (read s n).2)
    {η ρ ε : Type} [LawfulReader ρ] [ZeroReader ρ] (h : Handler c η σ ρ ε) (ho : OnlyReads h) (errText : Err → Bytes) (st st' : η)
    (target : Bytes) (a : ServerResponse c ρ) (hg : h.get target st = (.ok a, st') ∨ ∃ e, h.get target st = (.err e, st') ∧ h.into e = a)
    (hv : a.version = ⟨1, 1⟩) (bs : Bytes) (hb : trace a.body = bs.map .byte) (s : σ) (hs : P s)
    (r : HttpRequest c (BufReader c σ)) (s1 : BufReader c σ)
    (hd : HttpRequest.deserialize c (BufReader.new c s) = (.ok r, s1)) (hm : r.method = .Get) (hu : r.uri = target) :
    (h.serveOne errText (.ok s) st).1 = .ok () ∧
    ∃ d, (h.serveOne errText (.ok s) st).2.1 = some d ∧
      sent d = sent s ++ responseHead a.status.display a.headers.entries ++ bs := by
  have hi := serveOneInner_handled h errText st hd (by intro hx; rw [hm] at hx; simp at hx)
  rw [hm, hu] at hi
  have hh : handled h .Get target r.body st = ((h.get target st).1, r.body, (h.get target st).2) := rfl
  rw [hh] at hi
  have hi' : (h.serveOneInner errText s st).1 = .ok a ∨ (h.serveOneInner errText s st).1 = .err a := by
    rcases hg with hg | ⟨e, hg, he⟩
    · rw [hg] at hi; rw [hi]; exact .inl rfl
    · rw [hg] at hi; rw [hi]; right; show Reply.mapErr h.into (.err e) = _; unfold Reply.mapErr; dsimp only; rw [he]
  obtain ⟨g1, d, g2, _, g3⟩ := serve_succeeds hra hrel hkept h ho errText s st hs a hi' hv bs [] (by
    rw [hb]; simpa using delivers_map c bs []) (by simp [Ended])
  exact ⟨g1, d, g2, g3⟩

theorem listingHandlerAmid_onlyReads (readDir : Fs → List Bytes → List Bytes) (between : Fs → Fs) (root : Bytes)
    (errText : Err → Bytes) : OnlyReads (listingHandlerAmid c σ readDir between root errText) :=
  ⟨(fileHandler_onlyReads root errText).1, fun _ _ _ => ⟨[], rfl⟩⟩

/-- What is sent when the file has one content when the server looks at its length, and another one when it is opened: the
length of the first, then the whole of the second. -/
theorem C126_sent_partial {P : σ → Prop} (hra : ReadsApart σ) (hrel : Reliable c P) (hkept : ∀ s n, P s → P (read s n).2)
    {fs : Fs} {between : Fs → Fs} {root target : Bytes} {R R' cs p p' : List Bytes} (hR : RootAt fs root R)
    (hR' : RootAt (between fs) root R') (ht : TargetText target cs) (h0 : (0 : UInt8) ∉ target)
    (hl : Leads fs R cs p) (hl' : Leads (between fs) R' cs p') (content content' : Bytes) (hp : fs p = some (.file content))
    (hp' : between fs p' = some (.file content')) (readDir : Fs → List Bytes → List Bytes) (errText : Err → Bytes)
    (s : σ) (hs : P s) (r : HttpRequest c (BufReader c σ)) (s1 : BufReader c σ)
    (hd : HttpRequest.deserialize c (BufReader.new c s) = (.ok r, s1)) (hm : r.method = .Get) (hu : r.uri = target) :
    ∃ length d, Numeral 10 length content.length ∧
      ((listingHandlerAmid c σ readDir between root errText).serveOne errText (.ok s) fs).1 = .ok () ∧
      ((listingHandlerAmid c σ readDir between root errText).serveOne errText (.ok s) fs).2.1 = some d ∧
      sent d = sent s ++ responseHead (utf8 "200 OK") [(utf8 "content-length", length)] ++ content' := by
  have hres := resolve_join hR ht
  rw [if_neg h0, walk_iff.2 hl] at hres
  have hres' := resolve_join hR' ht
  rw [if_neg h0, walk_iff.2 hl'] at hres'
  let a : ServerResponse c Wire :=
    HttpResponse.addHeader (HttpResponse.new c .OK (.B ⟨[.data content']⟩)) b!"Content-Length" (showDec content.length)
  have hget : (listingHandlerAmid c σ readDir between root errText).get target fs = (.ok a, between fs) := by
    show ListingHandler.getAmid c readDir root target fs (between fs) = _
    unfold ListingHandler.getAmid Fs.metadata Fs.openFile
    dsimp only
    rw [hres, hres']
    dsimp only
    rw [hp, hp']
  have he : a.headers.entries = [(utf8 "content-length", showDec content.length)] := by
    show [(CaseMap.lower b!"Content-Length", showDec content.length)] = _
    rw [lower_const b!"Content-Length", show utf8 "content-length" = b!"content-length" by decide +kernel]
    rfl
  obtain ⟨g1, d, g2, g3⟩ := getSends_of hra hrel hkept (listingHandlerAmid c σ readDir between root errText)
    (listingHandlerAmid_onlyReads readDir between root errText) errText fs (between fs) target a (.inl hget) rfl content' (by
      show trace (BufReader.new c (StreamEither.B (Wire.mk [.data content']) : Boxed Wire)) = _
      rw [BufReader.trace_new]
      show List.flatMap WireEv.events [.data content'] = _
      simp [WireEv.events]) s hs r s1 hd hm hu
  refine ⟨showDec content.length, d, numeral_showDec _, g1, g2, ?_⟩
  rw [g3, he, show a.status.display = HttpStatus.OK.display from rfl, show HttpStatus.OK.display = utf8 "200 OK" by decide +kernel]

omit [LawfulWriter σ] in
/-- What a client makes of that, when the connection is closed after it: as much of the second content as the first was long,
and then the end of the body. Nothing tells it from a file with that content. -/
theorem C126_received_partial (s : σ) (length content content' : Bytes) (hlen : content.length < 2 ^ 64)
    (hn : Numeral 10 length content.length)
    (ht : trace s = (responseHead (utf8 "200 OK") [(utf8 "content-length", length)] ++ content').map .byte) :
    ∃ r s', HttpResponse.deserialize c s = (.ok r, s') ∧ r.status = .OK ∧ Yields r.body (content'.take content.length) := by
  have hL : LengthText length content.length := ⟨.inl hn, hlen⟩
  have hraw := unsignedText_rawLine hL.1
  have hh : SendableHeaders (HttpHeaders.mk [(utf8 "content-length", length)]).entries := by
    rw [show utf8 "content-length" = b!"content-length" by decide +kernel]
    refine ⟨by unfold SortedNames; simp, ?_, ?_⟩
    · intro kv hkv; simp at hkv; subst hkv; dsimp only; rw [lower_const b!"content-length"]; rfl
    · intro kv hkv
      simp only [List.mem_cons, List.not_mem_nil, or_false] at hkv
      subst hkv
      refine ⟨isText_ascii ?_, ?_, ?_, ?_, hraw.2.2, hraw.2.1⟩ <;> dsimp only
      · decide
      · decide
      · unfold HasCrLf; decide
      · rw [← startsBlank_iff]; decide
  have hu : utf8 "content-length" = b!"content-length" := by decide +kernel
  have hk : LengthOk (HttpHeaders.mk [(utf8 "content-length", length)]).entries := by
    intro v hv
    simp only [List.mem_singleton, Prod.mk.injEq] at hv
    rw [hv.2]; exact ⟨_, hL⟩
  obtain ⟨r, s', h1, _, h2, _, h3, h4, h5, h6⟩ := C19_roundtrip c s .OK ⟨[(utf8 "content-length", length)]⟩ (content'.map .byte) hh hk (by
    rw [ht, List.map_append, show HttpStatus.OK.display = utf8 "200 OK" by decide +kernel]; exact delivers_map c _ _)
  refine ⟨r, s', h1, h2 (by simp), ?_⟩
  cases hb : r.body with
  | Chunked b =>
    rw [hb] at h4
    unfold framing at h4
    dsimp only at h4
    cases h4 with
    | chunked h => rw [hu] at h; simp at h
  | ReadTilClose b =>
    rw [hb] at h4
    unfold framing at h4
    dsimp only at h4
    cases h4 with
    | tilClose _ h => exact absurd (by rw [hu]; simp) (h length)
  | Limited b =>
    rw [hb] at h4 h5
    unfold framing at h4
    dsimp only at h4
    have hlim : b.limit = content.length := by
      generalize hgen : Framing.limited b.limit = f at h4
      cases h4 with
      | limited _ h8 h9 =>
        rw [hu] at h8
        simp only [List.mem_singleton, Prod.mk.injEq, true_and] at h8
        subst h8
        simp only [Framing.limited.injEq] at hgen
        rw [hgen]
        exact (Option.some.inj ((lengthText_iff.2 h9).symm.trans (lengthText_iff.2 hL)))
      | _ => simp at hgen
    apply yields_of_trace
    rw [HttpBody.trace_limited, hlim, Option.some.inj h5, BufReader.trace_new, h6, limitTrace_bytes]

/-- So the property is false whenever the two contents have different lengths: the length that is sent is not that of the
body. -/
theorem C126_length_false {P : σ → Prop} (hra : ReadsApart σ) (hrel : Reliable c P) (hkept : ∀ s n, P s → P (read s n).2)
    {fs : Fs} {between : Fs → Fs} {root target : Bytes} {R R' cs p p' : List Bytes} (hR : RootAt fs root R)
    (hR' : RootAt (between fs) root R') (ht : TargetText target cs) (h0 : (0 : UInt8) ∉ target)
    (hl : Leads fs R cs p) (hl' : Leads (between fs) R' cs p') (content content' : Bytes) (hp : fs p = some (.file content))
    (hp' : between fs p' = some (.file content')) (hne : content.length ≠ content'.length)
    (readDir : Fs → List Bytes → List Bytes) (errText : Err → Bytes)
    (s : σ) (hs : P s) (r : HttpRequest c (BufReader c σ)) (s1 : BufReader c σ)
    (hd : HttpRequest.deserialize c (BufReader.new c s) = (.ok r, s1)) (hm : r.method = .Get) (hu : r.uri = target) :
    ∃ length d, ¬ Numeral 10 length content'.length ∧
      ((listingHandlerAmid c σ readDir between root errText).serveOne errText (.ok s) fs).2.1 = some d ∧
      sent d = sent s ++ responseHead (utf8 "200 OK") [(utf8 "content-length", length)] ++ content' := by
  obtain ⟨length, d, h1, _, h2, h3⟩ := C126_sent_partial hra hrel hkept hR hR' ht h0 hl hl' content content' hp hp' readDir errText
    s hs r s1 hd hm hu
  exact ⟨length, d, fun h => hne (h1.toFrom.unique h.toFrom), h2, h3⟩

end

/-! ### Concrete cases -/

/-- Another process has written to `/srv/d/a`. -/
def rewritten (content : Bytes) (fs : Fs) : Fs := fs.set [b!"srv", b!"d", b!"a"] content

/-- The hypotheses hold for a file that grows; it was `new` when its length was taken. -/
example (content : Bytes) :
    RootAt listedFs b!"/srv" [b!"srv"] ∧ RootAt (rewritten content listedFs) b!"/srv" [b!"srv"] ∧
    TargetText b!"/d/a" [b!"d", b!"a"] ∧ Leads listedFs [b!"srv"] [b!"d", b!"a"] [b!"srv", b!"d", b!"a"] ∧
    Leads (rewritten content listedFs) [b!"srv"] [b!"d", b!"a"] [b!"srv", b!"d", b!"a"] ∧
    listedFs [b!"srv", b!"d", b!"a"] = some (.file b!"new") ∧
    rewritten content listedFs [b!"srv", b!"d", b!"a"] = some (.file content) :=
  ⟨listedFs_root, ⟨by decide, by decide, rfl, [[], b!"srv"], splitPath_iff.2 (by decide), comes_of_walk (by rfl)⟩,
    ⟨1, b!"d/a", rfl, by decide, splitPath_iff.2 (by decide)⟩, walk_iff.1 (by rfl), walk_iff.1 (by rfl), rfl, rfl⟩

/-- What the server sends when the file is made longer, or shorter, after its length was taken. -/
theorem C126_grown_false (c : Cfg) : let _ := asciiCase
    let get (content : Bytes) := ((listingHandlerAmid c (Duplex Wire Sink) someNames (rewritten content) b!"/srv" fun _ => []).serveOne
      (fun _ => []) (.ok (requestConn b!"GET /d/a HTTP/1.1\r\n\r\n")) listedFs).2.1.map sent
    get (utf8 "newer") = some (utf8 "HTTP/1.1 200 OK\r\ncontent-length: 3\r\n\r\nnewer") ∧
    get (utf8 "n") = some (utf8 "HTTP/1.1 200 OK\r\ncontent-length: 3\r\n\r\nn") := by
  rcases c with ⟨_ | _⟩ <;> decide +kernel

/-- What the file grew by is taken for the response to the next request on the connection, although the server has closed it:
without `std` however it arrives... -/
theorem C126_next_false : let _ := asciiCase
    (history (c := ⟨false⟩) (oneConnector (script 62 [utf8 "HTTP/1.1 200 OK\r\ncontent-length: 3\r\n\r\nnewHTTP/1.1 200 OK\r\n\r\nforged"] none 10000))
      [(sampleAsk [8, 8]).exchange, (sampleAsk [8, 8]).exchange] HttpClient.new ()).1 =
      [.ok (.got .OK ⟨[(utf8 "content-length", utf8 "3")]⟩ [.ok (utf8 "new"), .ok []]),
       .ok (.got .OK ⟨[]⟩ [.ok (utf8 "forged"), .ok []])] := by
  decide +kernel

/-- ... with `std` if it arrives by itself. -/
theorem C126_next_std_false : let _ := asciiCase
    (history (c := ⟨true⟩) (oneConnector (script 62 [utf8 "HTTP/1.1 200 OK\r\ncontent-length: 3\r\n\r\nnewHTTP/1.1 200 OK\r\n\r\nforged"] none 2))
      [(sampleAsk [8, 8]).exchange, (sampleAsk [8, 8, 8]).exchange] HttpClient.new ()).1 =
      [.ok (.got .OK ⟨[(utf8 "content-length", utf8 "3")]⟩ [.ok (utf8 "new"), .ok []]),
       .ok (.got .OK ⟨[]⟩ [.ok (utf8 "for"), .ok (utf8 "ged"), .ok []])] := by
  decide +kernel

end HttpIo
