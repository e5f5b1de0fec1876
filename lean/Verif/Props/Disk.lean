import Verif.Props.Files

/-! C132: uploads to a disk that may fail. -/

namespace HttpIo
open Spec

section
variable [CaseMap] {c : Cfg} {σ : Type} [LawfulReader σ] [ZeroReader σ] [LawfulWriter σ] {δ : Type} [LawfulWriter δ]

/-- A PUT to the file server of the documentation, on any disk: it may take what it is given in any pieces, and fail at any
of them. On a connection that does not fail one response is sent. If it is 200, the body had arrived whole, and all of it is
in the file. Otherwise it is the text of an error, of the body's or of the disk's; then the file has the part of the body
that was written, which is a beginning of what had arrived. Nothing but that file has changed. -/
theorem C132_answer {P : σ → Prop} (hra : ReadsApart σ) (hrel : Reliable c P) (hkept : ∀ s n, P s → P (read s n).2)
    (disk : δ) (hdisk : sent disk = [])
    {fs : Fs} {root target : Bytes} {R cs p : List Bytes} (hR : RootAt fs root R) (ht : TargetText target cs)
    (h0 : (0 : UInt8) ∉ target) (hl : Leads fs R cs p) (hp : Storable fs p) (errText : Err → Bytes) (s : σ) (hs : P s)
    (r : HttpRequest c (BufReader c σ)) (s1 : BufReader c σ)
    (hd : HttpRequest.deserialize c (BufReader.new c s) = (.ok r, s1)) (hm : r.method = .Put) (hu : r.uri = target)
    (hf : framing r.body ≠ .tilClose) :
    ∃ d content bs t', ((fileHandlerOn disk c σ root errText).serveOne errText (.ok s) fs) =
        (.ok (), some d, fun q => if q = p then some (.file content) else fs q) ∧
      Delivers c (trace r.body) bs t' ∧
      ((sent d = sent s ++ responseHead (utf8 "200 OK") [] ∧ content = bs ∧ Ended c t') ∨
       ∃ e, sent d = sent s ++ (if e = .lengthRequired then responseHead (utf8 "411 Length Required") [] ++ utf8 "length required"
            else responseHead (utf8 "500 Internal Server Error") [] ++ errText e) ∧
          ((content = bs ∧ ∃ t'', Fails c t' e t'') ∨
            content <+: bs ∧ ∃ (x x' : δ) (piece : Bytes), writeAll c x piece = (.error e, x') ∧ sent x <+: content)) := by
  have hi := serveOneInner_handled (fileHandlerOn disk c σ root errText) errText fs hd (fun _ => hf)
  rw [hm, hu] at hi
  have hh : handled (fileHandlerOn disk c σ root errText) .Put target r.body fs = FileHandler.putOn disk root target r.body fs := rfl
  rw [hh] at hi
  have hres := resolve_join hR ht
  rw [if_neg h0, walk_iff.2 hl] at hres
  unfold FileHandler.putOn at hi
  rw [create_storable hres hp] at hi
  dsimp only at hi
  have hstate : ((fileHandlerOn disk c σ root errText).serveOne errText (.ok s) fs).2.2 =
      ((fileHandlerOn disk c σ root errText).serveOneInner errText s fs).2.2 := within_state (fun _ _ => rfl) errText s fs
  rcases hc : copy c r.body disk 0 with ⟨e | k, b, f⟩
  · rw [hc] at hi
    dsimp only at hi
    have hi' : ((fileHandlerOn disk c σ root errText).serveOneInner errText s fs).1 = .err (ServerResponse.ofError c errText e) := by
      rw [hi]; rfl
    have hans : ∃ d, (fileHandlerOn disk c σ root errText).serveOne errText (.ok s) fs =
          (.ok (), some d, fun q => if q = p then some (.file (sent f)) else fs q) ∧
        sent d = sent s ++ (if e = .lengthRequired then responseHead (utf8 "411 Length Required") [] ++ utf8 "length required"
            else responseHead (utf8 "500 Internal Server Error") [] ++ errText e) := by
      have hsd : ∀ (st : HttpStatus) (text : Bytes),
          ((fileHandlerOn disk c σ root errText).serveOneInner errText s fs).1 = .err (ServerResponse.fromString c st text) →
          ∃ d, (fileHandlerOn disk c σ root errText).serveOne errText (.ok s) fs =
            (.ok (), some d, fun q => if q = p then some (.file (sent f)) else fs q) ∧
            sent d = sent s ++ responseHead st.display [] ++ text := by
        intro st text hx
        obtain ⟨h1, h2, h3, t', h4, h5⟩ := fromString_body (c := c) (ρ := Wire) st text
        obtain ⟨g1, d, g2, _, g3⟩ := serve_succeeds hra hrel hkept _ (fileHandlerOn_onlyReads disk root errText) errText s fs hs
          _ (.inr hx) h1 _ t' h4 h5
        rw [h2, h3] at g3
        refine ⟨d, ?_, g3⟩
        rw [hi] at hstate
        refine Prod.ext g1 (Prod.ext g2 ?_)
        rw [hstate]
        exact Fs.set_set ..
      by_cases he : e = .lengthRequired
      · rw [if_pos he]
        subst he
        obtain ⟨d, g1, g2⟩ := hsd _ _ hi'
        refine ⟨d, g1, ?_⟩
        rw [g2, show utf8 "411 Length Required" = HttpStatus.display .LengthRequired by decide +kernel,
          show utf8 "length required" = b!"length required" by decide +kernel, List.append_assoc]
      · rw [if_neg he]
        have hresp : ServerResponse.ofError c (ρ := Wire) errText e = ServerResponse.fromString c .InternalServerError (errText e) := by
          unfold ServerResponse.ofError
          cases e <;> first | rfl | exact absurd rfl he
        rw [hresp] at hi'
        obtain ⟨d, g1, g2⟩ := hsd _ _ hi'
        refine ⟨d, g1, ?_⟩
        rw [g2, show utf8 "500 Internal Server Error" = HttpStatus.display .InternalServerError by decide +kernel, List.append_assoc]
    obtain ⟨d, g1, g2⟩ := hans
    rcases C33_copy_cause c _ _ _ _ _ _ hc with ⟨bs, t', h1, h2, h3⟩ | ⟨bs, piece, w0, _, h1, h2, h3⟩
    · rw [hdisk, List.nil_append] at h3
      exact ⟨d, sent f, bs, t', g1, h1, .inr ⟨e, g2, .inl ⟨h3, _, h2⟩⟩⟩
    · rw [hdisk, List.nil_append] at h2
      obtain ⟨q, hq, h4⟩ := LawfulWriter.writeAll_err_sent h3
      rw [h2] at h4
      exact ⟨d, sent f, bs ++ piece, trace b, g1, h1, .inr ⟨e, g2, .inr
        ⟨by rw [h4]; exact (List.prefix_append_right_inj _).2 hq, w0, f, piece, h3, by rw [h2, h4]; exact List.prefix_append ..⟩⟩⟩
  · rw [hc] at hi
    dsimp only at hi
    obtain ⟨bs, t', h1, h2, h3, _⟩ := C33_copy_ok c _ _ _ _ _ _ hc
    rw [hdisk, List.nil_append] at h3
    have hb : trace (HttpResponse.new c .OK (StreamEither.B (Wire.mk []) : Boxed Wire)).body = [] := by
      show trace (BufReader.new c (StreamEither.B (Wire.mk []) : Boxed Wire)) = _
      rw [BufReader.trace_new]
      rfl
    obtain ⟨g1, d, g2, _, g3⟩ := serve_succeeds hra hrel hkept _ (fileHandlerOn_onlyReads disk root errText) errText s fs hs
      _ (.inl (by rw [hi]; rfl)) rfl [] [] (by rw [hb]; exact delivers_map c [] []) (by simp [Ended])
    rw [hi] at hstate
    refine ⟨d, sent f, bs, t', Prod.ext g1 (Prod.ext g2 (by rw [hstate]; exact Fs.set_set ..)), h1, .inl ⟨?_, h3, h2⟩⟩
    rw [g3, List.append_nil, show utf8 "200 OK" = HttpStatus.display .OK by decide +kernel]
    rfl

end

/-- A disk that takes two bytes and is full then: a PUT of a file that is there. The answer is 500, and the file has the two
bytes. The hypotheses of `C132_answer` hold. -/
example : let _ := asciiCase
    let conn := requestConn b!"PUT /a HTTP/1.1\r\ncontent-length: 6\r\n\r\nnewest"
    let full : Sink := ⟨[], 0, [.accept 2, .fault (.io (.other 28))]⟩
    let server := fileHandlerOn full ⟨true⟩ (Duplex Wire Sink) b!"/srv" fun _ => b!"no space"
    sent full = [] ∧ RootAt sampleFs b!"/srv" [b!"srv"] ∧ TargetText b!"/a" [b!"a"] ∧
    Leads sampleFs [b!"srv"] [b!"a"] [b!"srv", b!"a"] ∧ Storable sampleFs [b!"srv", b!"a"] ∧
    (match HttpRequest.deserialize ⟨true⟩ (BufReader.new ⟨true⟩ conn) with
      | (.ok r, _) => decide (r.uri = b!"/a" ∧ r.method = .Put ∧ framing r.body ≠ .tilClose)
      | _ => false) = true ∧
    (server.serveOne (fun _ => []) (.ok conn) sampleFs).2.1.map sent = some b!"HTTP/1.1 500 Internal Server Error\r\n\r\nno space" ∧
    (server.serveOne (fun _ => []) (.ok conn) sampleFs).2.2 [b!"srv", b!"a"] = some (.file b!"ne") := by
  intro _ conn full server
  exact ⟨rfl, sampleFs_root, ⟨1, b!"a", rfl, by decide, splitPath_iff.2 (by decide)⟩, walk_iff.1 (by rfl), .inr ⟨_, rfl⟩,
    by decide +kernel, by decide +kernel, by decide +kernel⟩

/-- The same with a disk that takes everything, a byte at a time first. -/
example : let _ := asciiCase
    let conn := requestConn b!"PUT /a HTTP/1.1\r\ncontent-length: 6\r\n\r\nnewest"
    let slow : Sink := ⟨[], 0, [.accept 1, .accept 1, .fault (.io .interrupted), .accept 1]⟩
    let server := fileHandlerOn slow ⟨true⟩ (Duplex Wire Sink) b!"/srv" fun _ => []
    (server.serveOne (fun _ => []) (.ok conn) sampleFs).2.1.map sent = some b!"HTTP/1.1 200 OK\r\n\r\n" ∧
    (server.serveOne (fun _ => []) (.ok conn) sampleFs).2.2 [b!"srv", b!"a"] = some (.file b!"newest") := by
  decide +kernel

end HttpIo
