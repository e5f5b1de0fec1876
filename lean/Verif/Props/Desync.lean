import Verif.Lemmas.Script

/-! C46, C47: responses that are not read to their end on the wire, and what the next request on the connection gets. -/

namespace HttpIo
open Spec

section
variable [CaseMap] {c : Cfg} {ω α σ : Type} [DecidableEq α] [PeerSocket σ] [ZeroReader σ]

omit [DecidableEq α] in
theorem response_blank {s : σ} {t : List Ev} (h : Delivers c (trace s) [13, 10] t) :
    ∃ s', HttpResponse.deserialize c s = (.err .unexpectedEof, s') ∧ trace s' = t := by
  have := innerNext_eq (innerNextT_line (l := []) (by simp [HasCrLf]) h)
  unfold HttpResponse.deserialize parseHead expectNext
  rcases hi : innerNext c s with ⟨r, s'⟩
  rw [hi] at this
  obtain ⟨h1, h2⟩ := this
  dsimp only at h1 h2
  rw [h1]
  exact ⟨s', rfl, h2⟩

omit [DecidableEq α] in
theorem response_lf {s : σ} {t : List Ev} {status : HttpStatus} {entries : List (Bytes × Bytes)}
    (h : Delivers c (trace s) (10 :: responseHead status.display entries) t) :
    ∃ s', HttpResponse.deserialize c s = (.err .parse, s') := by
  have hl : RawLine (10 :: (b!"HTTP/1.1" ++ [32] ++ status.display)) := by
    refine ⟨by simp, ?_, ?_⟩
    · rw [show 10 :: (b!"HTTP/1.1" ++ [32] ++ status.display) = b!"\nHTTP/1.1" ++ 32 :: status.display by simp]
      exact not_hasCrLf_join (by decide) (by decide) (by unfold HasCrLf; decide) (status_display_noCrLf status)
    · exact isText_append (isText_append (isText_ascii (s := b!"\nHTTP/1.1") (by decide)) (isText_ascii (by decide)))
        (isText_ascii (status_display_valid status))
  have h' : ∃ t', Delivers c (trace s) (10 :: (b!"HTTP/1.1" ++ [32] ++ status.display) ++ [13, 10]) t' := by
    unfold responseHead at h
    rw [utf8_http11] at h
    rw [show 10 :: (b!"HTTP/1.1" ++ [32] ++ status.display ++ [13, 10] ++ headerText entries ++ [13, 10]) =
      (10 :: (b!"HTTP/1.1" ++ [32] ++ status.display) ++ [13, 10]) ++ (headerText entries ++ [13, 10]) by simp] at h
    obtain ⟨t', h1, _⟩ := h.split
    exact ⟨t', h1⟩
  obtain ⟨t', h'⟩ := h'
  obtain ⟨s', h1, _⟩ := expectNext_line hl h'
  have h2 : parseStatusLine (10 :: (b!"HTTP/1.1" ++ [32] ++ status.display)) = .err .parse := by
    have hv : validUtf8 status.display = true := validUtf8_of_ascii (status_display_valid status)
    have hline : 10 :: (b!"HTTP/1.1" ++ [32] ++ status.display) = [] ++ (b!"\nHTTP/1.1" ++ 32 :: status.display) := by simp
    unfold parseStatusLine Parser.new
    rw [hline]
    have t1 := Parser.parseToken_word [] b!"\nHTTP/1.1" status.display (by decide) (status_display_head status)
      (validUtf8_join (by decide) (by rw [validUtf8_cons_ascii (by decide)]; exact hv))
    simp only [List.length_nil] at t1
    rw [t1]
    dsimp only
    have : HttpVersion.fromStr b!"\nHTTP/1.1" = .err .parse := by decide +kernel
    rw [this]
  refine ⟨s', ?_⟩
  unfold HttpResponse.deserialize parseHead
  rw [h1]; dsimp only
  rw [h2]

/-- The next request when the CR LF of a chunked body is left: it fails, and its response is left. -/
theorem roundTrip_after_crlf {P : σ → Prop} (hr : Reliable c P) (idle : List Ev)
    (hP : ∀ s n, P s → idle <:+ trace (read s n).2 → P (read s n).2)
    {κ : Type} {said : κ → List Ev → Prop} {pr : Bytes → List Ev} {got : List Ev} {w : Bytes} {s : σ}
    (hs : Rests P pr idle ([13, 10].map .byte) got w s) (q : Ask) (hq : q.Proper) (k : κ) (rest : List (Ask × κ))
    (hserves : Serves said pr idle w got ((q, k) :: rest)) :
    ∃ b o s' evs got' w', HttpRequestBuilder.new c (HttpUrl.tryFrom q.url) (if q.put then .Put else .Get) = .ok b ∧
      b.send s = .ok o ∧ roundTrip q.writes q.sizes o = (.failed .unexpectedEof, s') ∧ said k evs ∧
      Rests P pr idle evs got' w' s' ∧ Serves said pr idle w' got' rest := by
  obtain ⟨rfl, rfl⟩ : pr = PeerSocket.peer s ∧ w = wire s := ⟨hs.peer.symm, hs.wire.symm⟩
  obtain ⟨b, o, o', s1, bytes, evs, h1, h2, h3, h4, h6, h7, h8, h9, g1, g2, htr, g4⟩ :=
    request_heard hr s hs.fine hs.flushed q hq hs.taken hserves
  obtain ⟨s2, f1, f2⟩ := response_blank (c := c) (s := s1) (t := evs ++ idle)
    (by rw [htr, List.append_assoc]; exact delivers_map c [13, 10] _)
  have hkeep := peer_readKept hP (PeerSocket.peer s1) (wire s1) (wire s1)
  have m1 := hkeep.response (c := c) (s := s1) ⟨rfl, rfl, h7, fun _ => h8⟩
  rw [f1, h9] at m1
  exact ⟨b, o, s2, evs, got ++ evs, _, h1, h2, roundTrip_failed h3 h4 f1, g2, rests_of_read m1 f2 g1, g4⟩

/-- The next request when the LF of a chunked body is left: it fails. -/
theorem roundTrip_after_lf {P : σ → Prop} (hr : Reliable c P) (idle : List Ev)
    {κ : Type} {said : κ → List Ev → Prop} {pr : Bytes → List Ev} {got : List Ev} {w : Bytes} {s : σ}
    (hs : Rests P pr idle ([10].map .byte) got w s) (q : Ask) (hq : q.Proper) (k : κ) (a : Answer)
    (hsaid : ∀ evs, said k evs → a.Sent c evs) (rest : List (Ask × κ))
    (hserves : Serves said pr idle w got ((q, k) :: rest)) :
    ∃ b o s', HttpRequestBuilder.new c (HttpUrl.tryFrom q.url) (if q.put then .Put else .Get) = .ok b ∧
      b.send s = .ok o ∧ roundTrip q.writes q.sizes o = (.failed .parse, s') := by
  obtain ⟨rfl, rfl⟩ : pr = PeerSocket.peer s ∧ w = wire s := ⟨hs.peer.symm, hs.wire.symm⟩
  obtain ⟨b, o, o', s1, bytes, evs, h1, h2, h3, h4, h6, h7, h8, h9, g1, g2, htr, g4⟩ :=
    request_heard hr s hs.fine hs.flushed q hq hs.taken hserves
  obtain ⟨hd, g2, g3⟩ := hsaid _ g2
  obtain ⟨pre, e1, e2⟩ := g3.suffix
  rw [List.append_nil] at e1
  obtain ⟨s2, f1⟩ := response_lf (c := c) (s := s1) (t := a.body.map .byte ++ idle) (status := a.status)
    (entries := a.headers.entries) (by
      rw [htr, g2, e1]
      simp only [List.map_cons, List.map_nil, List.cons_append, List.nil_append, List.append_assoc]
      exact .byte 10 (e2 _))
  exact ⟨b, o, s2, h1, h2, roundTrip_failed h3 h4 f1⟩

/-- Without `std`: the next request when a whole response is left gets that response, and its own is left. -/
theorem roundTrip_stale (hc : c.std = false) {P : σ → Prop} (hr : Reliable c P) (idle : List Ev)
    (hP : ∀ s n, P s → idle <:+ trace (read s n).2 → P (read s n).2)
    {κ : Type} {said : κ → List Ev → Prop} {pr : Bytes → List Ev} {got left : List Ev} {w : Bytes} {s : σ}
    (hs : Rests P pr idle left got w s) (a : Answer) (ha : a.Proper) (hleft : a.Sent c left)
    (q : Ask) (hq : q.Proper) (k : κ)
    (hsizes : Positive q.sizes) (hlen : a.body.length ≤ q.sizes.length) (rest : List (Ask × κ))
    (hserves : Serves said pr idle w got ((q, k) :: rest)) :
    ∃ b o s' st rs evs got' w', HttpRequestBuilder.new c (HttpUrl.tryFrom q.url) (if q.put then .Put else .Get) = .ok b ∧
      b.send s = .ok o ∧ roundTrip q.writes q.sizes o = (.got st a.headers rs, s') ∧
      st = HttpStatus.fromCode a.status.toCode ∧ ReadAll rs a.body ∧ said k evs ∧
      Rests P pr idle evs got' w' s' ∧ Serves said pr idle w' got' rest := by
  obtain ⟨rfl, rfl⟩ : pr = PeerSocket.peer s ∧ w = wire s := ⟨hs.peer.symm, hs.wire.symm⟩
  obtain ⟨b, o, o', s1, bytes, evs, h1, h2, h3, h4, h6, h7, h8, h9, g1, g2, htr, g4⟩ :=
    request_heard hr s hs.fine hs.flushed q hq hs.taken hserves
  obtain ⟨hd, l2, g3⟩ := hleft
  obtain ⟨pre, e1, e2⟩ := g3.suffix
  rw [List.append_nil] at e1
  have hdel : Delivers c (trace s1) (responseHead a.status.display a.headers.entries)
      (a.body.map .byte ++ (evs ++ idle)) := by
    rw [htr, l2, e1, List.append_assoc, List.append_assoc]; exact e2 _
  obtain ⟨r, s2, f1, f2, _, f3, f4, f5, f6⟩ := response_delivered c s1 a.status a.headers _ ha.sendable
    (FramedBy.lengthOk ha.sendable.1 ha.framed) hdel
  have hfr := framedBy_unique ha.sendable.1 f4 ha.framed
  have hbody : r.body = .Limited ⟨BufReader.new c s2, a.body.length⟩ := by
    cases hb : r.body with
    | Chunked i => rw [hb] at hfr; simp [framing] at hfr
    | ReadTilClose i => rw [hb] at hfr; simp [framing] at hfr
    | Limited t =>
      rw [hb] at hfr f5
      obtain ⟨i, l⟩ := t
      simp only [framing, Framing.limited.injEq] at hfr
      simp only [HttpBody.under, Option.some.injEq] at f5
      rw [hfr, f5]
  obtain ⟨k1, s3, k2, k3⟩ := limited_read (c := c) (BufReader.new c s2) a.body (evs ++ idle)
    (by rw [BufReader.trace_new, f6]) q.sizes hsizes hlen
  rw [← hbody] at k1 k2
  rw [BufReader.trace_eq, if_neg (by rw [hc]; simp)] at k3
  have hkept := body_kept hP h8 h7 f1 k2
  rw [h9] at hkept
  exact ⟨b, o, s3.inner, r.status, _, evs, got ++ evs, _, h1, h2, by rw [roundTrip_got h3 h4 f1 k2, f3], f2, k1, g2,
    rests_of_read hkept k3 g1, g4⟩

variable (N : StreamConnector ω α σ) (P : σ → Prop) (hr : Reliable c P) (idle : List Ev)
  (hP : ∀ s n, P s → idle <:+ trace (read s n).2 → P (read s n).2) (hidle : ∀ b t, idle ≠ .byte b :: t) (a : α)
  (cl : HttpClient α σ) (s : σ)
  (hs : poolGet a cl.streams = some s ∨ poolGet a cl.streams = none ∧ ∀ w, (N.connect a w).1 = .ok s)
  (hPs : P s) (hfl : wire s = sent s) (hpend : trace s = idle)

include hr hP hidle hs hPs hfl hpend

/-- What the request after a chunked response gets, in all cases. The peer answers the first request with a chunked
response, which is read to its end, and the second one with a response of declared length. Of the CR LF that ends the
chunked body, `left` is left on the connection: all of it without `std`; some end of it with `std`, depending on the
segments in which it arrives. Only if nothing is left, the second request gets its response. -/
theorem C46_next (q1 q2 : Ask) (a1 : ChunkedAnswer) (a2 : Answer) (h1 : q1.Proper) (h2 : q2.Proper) (g1 : a1.Proper)
    (g2 : a2.Proper) (haddr1 : ∀ w, (N.toStreamAddr q1.url w).1 = .ok a) (haddr2 : ∀ w, (N.toStreamAddr q2.url w).1 = .ok a)
    (hp1 : Positive q1.sizes) (hp2 : Positive q2.sizes) (hlen1 : (chunkedData a1.chunks).length < q1.sizes.length)
    (hlen2 : a2.body.length ≤ q2.sizes.length)
    (hserves : Serves (fun said => said) (PeerSocket.peer s) idle (wire s) (PeerSocket.taken s)
      [(q1, a1.Sent c), (q2, a2.Sent c)]) (w : ω) :
    ∃ st1 rs1 out2 s1 left, (history (c := c) N [q1.exchange, q2.exchange] cl w).1 = [.ok (.got st1 a1.headers rs1), .ok out2] ∧
      st1.toCode = a1.status.toCode ∧ ReadAll rs1 (chunkedData a1.chunks) ∧
      poolGet a (history (c := c) N [q1.exchange] cl w).2.1.streams = some s1 ∧ trace s1 = left.map .byte ++ idle ∧
      (left = [] ∨ left = [10] ∨ left = [13, 10]) ∧ (c.std = false → left = [13, 10]) ∧
      (left = [] → ∃ st2 rs2, out2 = .got st2 a2.headers rs2 ∧ st2.toCode = a2.status.toCode ∧ ReadAll rs2 a2.body) ∧
      (left = [10] → out2 = .failed .parse) ∧ (left = [13, 10] → out2 = .failed .unexpectedEof) := by
  have hrest : Rests P (PeerSocket.peer s) idle [] (PeerSocket.taken s) (wire s) s :=
    ⟨hPs, hfl, rfl, rfl, hpend, List.append_nil _⟩
  obtain ⟨b, o, s', st, rs, left, got', wr', e1, e2, e3, e4, e5, e6, e7, _, e8, e9⟩ :=
    roundTrip_chunked (said := fun said => said) hr idle hP hidle hrest q1 h1 _ a1 g1 (fun _ h => h) hp1 hlen1 _ hserves
  obtain ⟨cl', w', x1, x2⟩ := exchange_step N q1 cl w a haddr1 hs e1 e2 e3
  have hleft : left = [] ∨ left = [10] ∨ left = [13, 10] := by
    obtain ⟨t, ht⟩ := e6
    match t, left, ht with
    | [], _, ht => exact .inr (.inr ht)
    | [_], l, ht => simp at ht; exact .inr (.inl ht.2)
    | [_, _], l, ht => simp at ht; exact .inl ht.2.2
    | _ :: _ :: _ :: _, l, ht => simp at ht
  have hhist : ∀ out2 cl'' w'', exchange N (q2.exchange (c := c)) cl' w' = (.ok out2, cl'', w'') →
      (history (c := c) N [q1.exchange, q2.exchange] cl w).1 = [.ok (.got st a1.headers rs), .ok out2] := by
    intro out2 cl'' w'' h
    simp only [history]
    rw [x1]; dsimp only
    rw [h]
  have hpool : poolGet a (history (c := c) N [q1.exchange] cl w).2.1.streams = some s' := by
    simp only [history]
    rw [x1]; exact x2
  rcases hleft with hl | hl | hl
  · subst hl
    obtain ⟨b2, o2, s2, st2, rs2, _, _, f1, f2, f3, f4, f5, f6, f7⟩ :=
      roundTrip_answered (said := fun said => said) hr idle hP hidle e8 q2 h2 _ a2 g2 (fun _ h => h) hp2 hlen2 _ e9
    obtain ⟨cl'', w'', y1, y2⟩ := exchange_step N q2 cl' w' a haddr2 (.inl x2) f1 f2 f3
    exact ⟨st, rs, _, s', [], hhist _ _ _ y1, by rw [e4, C01_code_lossless], e5, hpool, e8.pending, .inl rfl, e7,
      fun _ => ⟨st2, rs2, rfl, by rw [f4, C01_code_lossless], f5⟩, by simp, by simp⟩
  · subst hl
    obtain ⟨b2, o2, s2, f1, f2, f3⟩ := roundTrip_after_lf (said := fun said => said) hr idle e8 q2 h2 _ a2 (fun _ h => h) _ e9
    obtain ⟨cl'', w'', y1, y2⟩ := exchange_step N q2 cl' w' a haddr2 (.inl x2) f1 f2 f3
    exact ⟨st, rs, _, s', _, hhist _ _ _ y1, by rw [e4, C01_code_lossless], e5, hpool, e8.pending, .inr (.inl rfl), e7,
      by simp, fun _ => rfl, by simp⟩
  · subst hl
    obtain ⟨b2, o2, s2, evs, _, _, f1, f2, f3, f4, f5, f6⟩ := roundTrip_after_crlf hr idle hP e8 q2 h2 _ _ e9
    obtain ⟨cl'', w'', y1, y2⟩ := exchange_step N q2 cl' w' a haddr2 (.inl x2) f1 f2 f3
    exact ⟨st, rs, _, s', _, hhist _ _ _ y1, by rw [e4, C01_code_lossless], e5, hpool, e8.pending, .inr (.inr rfl), e7,
      by simp, by simp, fun _ => rfl⟩

/-- The property is false: without `std`, the request after a chunked response that was read to its end always fails,
whatever the two responses are and however they arrive. -/
theorem C46_chunked_false (hc : c.std = false)
    (q1 q2 : Ask) (a1 : ChunkedAnswer) (a2 : Answer) (h1 : q1.Proper) (h2 : q2.Proper) (g1 : a1.Proper)
    (g2 : a2.Proper) (haddr1 : ∀ w, (N.toStreamAddr q1.url w).1 = .ok a) (haddr2 : ∀ w, (N.toStreamAddr q2.url w).1 = .ok a)
    (hp1 : Positive q1.sizes) (hp2 : Positive q2.sizes) (hlen1 : (chunkedData a1.chunks).length < q1.sizes.length)
    (hlen2 : a2.body.length ≤ q2.sizes.length)
    (hserves : Serves (fun said => said) (PeerSocket.peer s) idle (wire s) (PeerSocket.taken s)
      [(q1, a1.Sent c), (q2, a2.Sent c)]) (w : ω) :
    (history (c := c) N [q1.exchange, q2.exchange] cl w).1[1]? = some (.ok (.failed .unexpectedEof)) := by
  obtain ⟨st1, rs1, out2, s1, left, e1, _, _, _, _, _, e2, _, _, e3⟩ := C46_next N P hr idle hP hidle a cl s hs hPs hfl hpend
    q1 q2 a1 a2 h1 h2 g1 g2 haddr1 haddr2 hp1 hp2 hlen1 hlen2 hserves w
  rw [e1, e3 (e2 hc)]; rfl

omit hs hPs hfl hpend hidle in
/-- Without `std`: once a response is left on the connection, every request gets the response to the one before. -/
theorem stale_history (hc : c.std = false) (a0 : Answer) (g0 : a0.Proper) (list : List (Ask × Answer))
    (haddr : ∀ x ∈ list, ∀ w, (N.toStreamAddr x.1.url w).1 = .ok a)
    (hq : ∀ x ∈ list, x.1.Proper ∧ x.2.Proper ∧ Positive x.1.sizes ∧
      ∀ y ∈ a0 :: list.map (·.2), y.body.length ≤ x.1.sizes.length)
    (hs : poolGet a cl.streams = some s) (pr : Bytes → List Ev) (left got : List Ev) (hleft : a0.Sent c left) (wr : Bytes)
    (hrest : Rests P pr idle left got wr s)
    (hserves : Serves (fun said => said) pr idle wr got (list.map fun x => (x.1, x.2.Sent c))) (w : ω) :
    (history (c := c) N (list.map fun x => x.1.exchange) cl w).1.length = list.length ∧
    ∀ (k : Nat) prev, (a0 :: list.map (·.2))[k]? = some prev → k < list.length →
      ∃ st rs, (history (c := c) N (list.map fun x => x.1.exchange) cl w).1[k]? = some (.ok (.got st prev.headers rs)) ∧
        st.toCode = prev.status.toCode ∧ ReadAll rs prev.body := by
  induction list generalizing cl s w got wr left a0 with
  | nil => simp [history]
  | cons x list ih =>
    obtain ⟨q, ans⟩ := x
    obtain ⟨p1, p2, p3, p4⟩ := hq (q, ans) (by simp)
    obtain ⟨b, o, s', st, rs, evs, got', wr', h1, h2, h3, h4, h5, h6, h7, h8⟩ :=
      roundTrip_stale (said := fun said => said) hc hr idle hP hrest a0 g0 hleft q p1 _ p3 (p4 a0 (by simp)) _ hserves
    obtain ⟨cl', w2, e1, e2⟩ := exchange_step N q cl w a (haddr (q, ans) (by simp)) (.inl hs) h1 h2 h3
    obtain ⟨i1, i2⟩ := ih cl' s' ans p2 (fun x hx => haddr x (by simp [hx]))
      (fun x hx => by
        obtain ⟨j1, j2, j3, j4⟩ := hq x (by simp [hx])
        exact ⟨j1, j2, j3, fun y hy => j4 y (by rw [List.map_cons]; exact .tail _ hy)⟩) e2 evs got' h6 wr' h7 h8 w2
    have hh : (history (c := c) N (((q, ans) :: list).map fun x => x.1.exchange) cl w).1 =
        .ok (.got st a0.headers rs) :: (history (c := c) N (list.map fun x => x.1.exchange) cl' w2).1 := by
      rw [List.map_cons, history]
      dsimp only
      rw [e1]
    rw [hh]
    refine ⟨by simp [i1], fun k prev hk hlt => ?_⟩
    cases k with
    | zero =>
      simp only [List.getElem?_cons_zero, Option.some.injEq] at hk
      subst hk
      exact ⟨st, rs, rfl, by rw [h4, C01_code_lossless], h5⟩
    | succ k =>
      rw [List.getElem?_cons_succ] at hk ⊢
      exact i2 k prev hk (by simpa using hlt)

/-- Without `std` it is worse: from then on every request on the connection obtains the response to the request before
it, for every number of requests. (`list` begins with the second request.) -/
theorem C46_off_by_one_false (hc : c.std = false) (q1 : Ask) (a1 : ChunkedAnswer) (h1 : q1.Proper) (g1 : a1.Proper)
    (hp1 : Positive q1.sizes) (hlen1 : (chunkedData a1.chunks).length < q1.sizes.length)
    (haddr1 : ∀ w, (N.toStreamAddr q1.url w).1 = .ok a) (list : List (Ask × Answer))
    (haddr : ∀ x ∈ list, ∀ w, (N.toStreamAddr x.1.url w).1 = .ok a)
    (hq : ∀ x ∈ list, x.1.Proper ∧ x.2.Proper ∧ Positive x.1.sizes ∧ ∀ y ∈ list, y.2.body.length ≤ x.1.sizes.length)
    (hserves : Serves (fun said => said) (PeerSocket.peer s) idle (wire s) (PeerSocket.taken s)
      ((q1, a1.Sent c) :: list.map fun x => (x.1, x.2.Sent c))) (w : ω) :
    let outs := (history (c := c) N (q1.exchange :: list.map fun x => x.1.exchange) cl w).1
    (∃ st rs, outs[0]? = some (.ok (.got st a1.headers rs)) ∧ st.toCode = a1.status.toCode ∧
      ReadAll rs (chunkedData a1.chunks)) ∧
    (list ≠ [] → outs[1]? = some (.ok (.failed .unexpectedEof))) ∧
    ∀ (k : Nat) q ans, list[k]? = some (q, ans) → k + 1 < list.length →
      ∃ st rs, outs[k + 2]? = some (.ok (.got st ans.headers rs)) ∧ st.toCode = ans.status.toCode ∧
        ReadAll rs ans.body := by
  have hrest : Rests P (PeerSocket.peer s) idle [] (PeerSocket.taken s) (wire s) s :=
    ⟨hPs, hfl, rfl, rfl, hpend, List.append_nil _⟩
  obtain ⟨b, o, s', st, rs, left, got', wr', e1, e2, e3, e4, e5, e6, e7, _, e8, e9⟩ :=
    roundTrip_chunked (said := fun said => said) hr idle hP hidle hrest q1 h1 _ a1 g1 (fun _ h => h) hp1 hlen1 _ hserves
  obtain ⟨cl', w', x1, x2⟩ := exchange_step N q1 cl w a haddr1 hs e1 e2 e3
  have hleft := e7 hc
  subst hleft
  have hh : (history (c := c) N (q1.exchange :: list.map fun x => x.1.exchange) cl w).1 =
      .ok (.got st a1.headers rs) :: (history (c := c) N (list.map fun x => x.1.exchange) cl' w').1 := by
    rw [history]
    dsimp only
    rw [x1]
  intro outs
  have hst : st.toCode = a1.status.toCode := by rw [e4, C01_code_lossless]
  cases list with
  | nil => exact ⟨⟨st, rs, by unfold outs; rw [hh]; rfl, hst, e5⟩, by simp, by simp⟩
  | cons x list =>
    obtain ⟨q2, a2⟩ := x
    obtain ⟨p1, p2, p3, p4⟩ := hq (q2, a2) (by simp)
    obtain ⟨b2, o2, s2, evs, got2, wr2, f1, f2, f3, f4, f5, f6⟩ :=
      roundTrip_after_crlf (said := fun said => said) hr idle hP e8 q2 p1 _ _ e9
    obtain ⟨cl2, w2, y1, y2⟩ := exchange_step N q2 cl' w' a (haddr (q2, a2) (by simp)) (.inl x2) f1 f2 f3
    obtain ⟨_, i2⟩ := stale_history N P hr idle hP a cl2 s2 hc a2 p2 list (fun x hx => haddr x (by simp [hx]))
      (fun x hx => by
        obtain ⟨j1, j2, j3, j4⟩ := hq x (by simp [hx])
        refine ⟨j1, j2, j3, fun y hy => ?_⟩
        rcases List.mem_cons.1 hy with rfl | hy
        · exact j4 (q2, y) (by simp)
        · obtain ⟨z, hz, rfl⟩ := List.mem_map.1 hy
          exact j4 z (by simp [hz])) y2 _ evs got2 f4 wr2 f5 f6 w2
    have hh2 : (history (c := c) N (((q2, a2) :: list).map fun x => x.1.exchange) cl' w').1 =
        .ok (.failed .unexpectedEof) :: (history (c := c) N (list.map fun x => x.1.exchange) cl2 w2).1 := by
      rw [List.map_cons, history]
      dsimp only
      rw [y1]
    have houts : outs = .ok (.got st a1.headers rs) :: .ok (.failed .unexpectedEof) ::
        (history (c := c) N (list.map fun x => x.1.exchange) cl2 w2).1 := by
      unfold outs; rw [hh, hh2]
    rw [houts]
    refine ⟨⟨st, rs, rfl, hst, e5⟩, fun _ => rfl, fun k q ans hk hlt => ?_⟩
    have := i2 k ans (by rw [← List.map_cons (f := (·.2)) (a := (q2, a2)), List.getElem?_map, hk]; rfl) (by simpa using hlt)
    simpa using this

/-- What does hold: if nothing of the first response is left on the connection, the second request obtains its own
response. Missing for the full property: what the code never does, reading the CR LF that ends the body. -/
theorem C46_chunked_partial
    (q1 q2 : Ask) (a1 : ChunkedAnswer) (a2 : Answer) (h1 : q1.Proper) (h2 : q2.Proper) (g1 : a1.Proper)
    (g2 : a2.Proper) (haddr1 : ∀ w, (N.toStreamAddr q1.url w).1 = .ok a) (haddr2 : ∀ w, (N.toStreamAddr q2.url w).1 = .ok a)
    (hp1 : Positive q1.sizes) (hp2 : Positive q2.sizes) (hlen1 : (chunkedData a1.chunks).length < q1.sizes.length)
    (hlen2 : a2.body.length ≤ q2.sizes.length)
    (hserves : Serves (fun said => said) (PeerSocket.peer s) idle (wire s) (PeerSocket.taken s)
      [(q1, a1.Sent c), (q2, a2.Sent c)]) (w : ω)
    (hnone : ∀ s1, poolGet a (history (c := c) N [q1.exchange] cl w).2.1.streams = some s1 → trace s1 = idle) :
    ∃ st1 rs1 st2 rs2, (history (c := c) N [q1.exchange, q2.exchange] cl w).1 =
        [.ok (.got st1 a1.headers rs1), .ok (.got st2 a2.headers rs2)] ∧
      st1.toCode = a1.status.toCode ∧ ReadAll rs1 (chunkedData a1.chunks) ∧
      st2.toCode = a2.status.toCode ∧ ReadAll rs2 a2.body := by
  obtain ⟨st1, rs1, out2, s1, left, e1, e2, e3, e4, e5, _, _, e6, _, _⟩ := C46_next N P hr idle hP hidle a cl s hs hPs hfl
    hpend q1 q2 a1 a2 h1 h2 g1 g2 haddr1 haddr2 hp1 hp2 hlen1 hlen2 hserves w
  have := hnone s1 e4
  rw [e5] at this
  have hl : left = [] := by
    have := congrArg List.length this
    simp only [List.length_append, List.length_map] at this
    exact List.length_eq_zero_iff.1 (by omega)
  obtain ⟨st2, rs2, e7, e8, e9⟩ := e6 hl
  exact ⟨st1, rs1, st2, rs2, by rw [e1, e7], e2, e3, e8, e9⟩

/-- For every number of requests on one connection, answered by responses that are chunked or of declared length, in any
order: with `std`, if reads with a buffer of at least 8 KiB do not stop right before or within the CR LF at the end of a
chunked body, the k-th request obtains the k-th response. Missing for the full property: other segmentations, and
everything without `std` (`C46_next`, `C46_chunked_false`). -/
theorem C46_together_partial (hc : c.std = true) (htog : Together P idle) (list : List (Ask × AnyAnswer))
    (haddr : ∀ x ∈ list, ∀ w, (N.toStreamAddr x.1.url w).1 = .ok a)
    (hq : ∀ x ∈ list, x.1.Proper ∧ x.2.Proper ∧ Positive x.1.sizes ∧ x.2.body.length < x.1.sizes.length)
    (hserves : Serves (AnyAnswer.Sent c) (PeerSocket.peer s) idle (wire s) (PeerSocket.taken s) list) (w : ω) :
    (history (c := c) N (list.map fun x => x.1.exchange) cl w).1.length = list.length ∧
    ∀ (k : Nat) q ans, list[k]? = some (q, ans) →
      ∃ st rs, (history (c := c) N (list.map fun x => x.1.exchange) cl w).1[k]? = some (.ok (.got st ans.headers rs)) ∧
        st.toCode = ans.status.toCode ∧ ReadAll rs ans.body := by
  have hrest : Rests P (PeerSocket.peer s) idle [] (PeerSocket.taken s) (wire s) s :=
    ⟨hPs, hfl, rfl, rfl, hpend, List.append_nil _⟩
  generalize PeerSocket.peer s = pr at hserves hrest
  generalize PeerSocket.taken s = got at hserves hrest
  generalize wire s = wr at hserves hrest
  clear hPs hfl hpend
  induction list generalizing cl s w got wr with
  | nil => simp [history]
  | cons x list ih =>
    obtain ⟨q, ans⟩ := x
    obtain ⟨p1, p2, p3, p4⟩ := hq (q, ans) (by simp)
    obtain ⟨b, o, s', st, rs, got', wr', h1, h2, h3, h4, h5, h6, h7⟩ :
        ∃ b o s' st rs got' w', HttpRequestBuilder.new c (HttpUrl.tryFrom q.url) (if q.put then .Put else .Get) = .ok b ∧
          b.send s = .ok o ∧ roundTrip q.writes q.sizes o = (.got st ans.headers rs, s') ∧
          st = HttpStatus.fromCode ans.status.toCode ∧ ReadAll rs ans.body ∧
          Rests P pr idle [] got' w' s' ∧ Serves (AnyAnswer.Sent c) pr idle w' got' list := by
      cases ans with
      | sized ans =>
        exact roundTrip_answered (said := AnyAnswer.Sent c) hr idle hP hidle hrest q p1 (.sized ans) ans p2 (fun _ h => h) p3 (Nat.le_of_lt p4) list hserves
      | chunked ans =>
        obtain ⟨b, o, s', st, rs, left, got', wr', e1, e2, e3, e4, e5, _, _, e6, e7, e8⟩ :=
          roundTrip_chunked (said := AnyAnswer.Sent c) hr idle hP hidle hrest q p1 (.chunked ans) ans p2 (fun _ h => h) p3 p4 list hserves
        rw [e6 hc htog] at e7
        exact ⟨b, o, s', st, rs, got', wr', e1, e2, e3, e4, e5, e7, e8⟩
    obtain ⟨cl', w2, e1, e2⟩ := exchange_step N q cl w a (haddr (q, ans) (by simp)) hs h1 h2 h3
    obtain ⟨i1, i2⟩ := ih cl' s' (.inl e2) (fun x hx => haddr x (by simp [hx])) (fun x hx => hq x (by simp [hx])) w2
      got' wr' h7 h6
    have hh : (history (c := c) N (((q, ans) :: list).map fun x => x.1.exchange) cl w).1 =
        .ok (.got st ans.headers rs) :: (history (c := c) N (list.map fun x => x.1.exchange) cl' w2).1 := by
      rw [List.map_cons, history]
      dsimp only
      rw [e1]
    rw [hh]
    refine ⟨by simp [i1], fun k q' ans' hk => ?_⟩
    cases k with
    | zero =>
      simp only [List.getElem?_cons_zero, Option.some.injEq, Prod.mk.injEq] at hk
      obtain ⟨rfl, rfl⟩ := hk
      exact ⟨st, rs, rfl, by rw [h4, C01_code_lossless], h5⟩
    | succ k =>
      rw [List.getElem?_cons_succ] at hk ⊢
      exact i2 k q' ans' hk

end


/-- A chunked response to the first request, then others. -/
def chunkedThen (c : Cfg) (answers : List Answer) : List (Ask × (List Ev → Prop) × Bytes) :=
  (sampleAsk [4, 4, 4, 4, 4], chunkedAnswer.Sent c, chunkedAnswerBytes chunkedAnswer) ::
    answers.map fun a => (sampleAsk [4, 4, 4, 4, 4], a.Sent c, answerBytes a)

/-- The peer that gives them. -/
def chunkedPeer (answers : List Answer) (idle : Option Err) (seg : Nat) : Talker :=
  script 62 (chunkedAnswerBytes chunkedAnswer :: answers.map answerBytes) idle seg

theorem chunkedPeer_serves (c : Cfg) (answers : List Answer) (idle : Option Err) (seg : Nat) :
    Serves (fun said => said) (PeerSocket.peer (chunkedPeer answers idle seg)) (idleEvs idle)
      (wire (chunkedPeer answers idle seg)) (PeerSocket.taken (chunkedPeer answers idle seg))
      ((sampleAsk [4, 4, 4, 4, 4], chunkedAnswer.Sent c) ::
        answers.map fun a => (sampleAsk [4, 4, 4, 4, 4], a.Sent c)) := by
  have := script_serves (fun said => said) (n := 62) (by omega) idle seg (chunkedThen c answers) ?_ ?_
  · rw [show PeerSocket.taken (chunkedPeer answers idle seg) = [] from script_taken _ _ _ _]
    simp only [chunkedThen, List.map_cons, List.map_map] at this
    exact this
  · intro x hx bytes hb
    simp only [chunkedThen, List.mem_cons, List.mem_map] at hx
    rcases hx with rfl | ⟨a, _, rfl⟩ <;> exact sampleAsk_bytes _ _ hb
  · intro x hx
    simp only [chunkedThen, List.mem_cons, List.mem_map] at hx
    rcases hx with rfl | ⟨a, _, rfl⟩
    · exact chunkedAnswer_sent c _
    · exact answer_sent c _

/-- Witness for `C46_next`, `C46_chunked_false`: a chunked response, then `hi`, over a connection to any scripted peer. -/
example (c : Cfg) (hc : c.std = false) (idle : Option Err) (seg : Nat) : let _ := asciiCase
    (history (c := c) (oneConnector (chunkedPeer [okAnswer b!"hi"] idle seg))
      [(sampleAsk [4, 4, 4, 4, 4]).exchange, (sampleAsk [4, 4, 4, 4, 4]).exchange] HttpClient.new ()).1[1]? =
      some (.ok (.failed .unexpectedEof)) := by
  obtain ⟨P, hr, hP, hidle, hPs, hfl, hpend⟩ := script_setting c 62
    (chunkedAnswerBytes chunkedAnswer :: [okAnswer b!"hi"].map answerBytes) idle seg
  exact @C46_chunked_false asciiCase c Unit Unit Talker _ _ _ _ P hr _ hP hidle () HttpClient.new
    (chunkedPeer [okAnswer b!"hi"] idle seg) (.inr ⟨rfl, fun _ => rfl⟩) hPs hfl hpend hc (sampleAsk [4, 4, 4, 4, 4])
    (sampleAsk [4, 4, 4, 4, 4]) chunkedAnswer (okAnswer b!"hi") (sampleAsk_proper _) (sampleAsk_proper _) chunkedAnswer_proper
    (okAnswer_proper _ (by decide)) (fun _ => rfl) (fun _ => rfl) (by unfold Positive sampleAsk; decide)
    (by unfold Positive sampleAsk; decide) (by decide +kernel) (by decide)
    (chunkedPeer_serves c [okAnswer b!"hi"] idle seg) ()

/-- Witness for `C46_off_by_one_false`: the third request obtains the response to the second, the fourth that to the
third. -/
example (c : Cfg) (hc : c.std = false) (idle : Option Err) (seg : Nat) : let _ := asciiCase
    let answers := [okAnswer b!"2nd", okAnswer b!"3rd", okAnswer b!"4th"]
    let outs := (history (c := c) (oneConnector (chunkedPeer answers idle seg))
      ((sampleAsk [4, 4, 4, 4, 4]).exchange :: answers.map fun _ => (sampleAsk [4, 4, 4, 4, 4]).exchange) HttpClient.new ()).1
    outs[1]? = some (.ok (.failed .unexpectedEof)) ∧
    (∃ st rs, outs[2]? = some (.ok (.got st (okAnswer b!"2nd").headers rs)) ∧ ReadAll rs b!"2nd") ∧
    ∃ st rs, outs[3]? = some (.ok (.got st (okAnswer b!"3rd").headers rs)) ∧ ReadAll rs b!"3rd" := by
  intro _ answers outs
  obtain ⟨P, hr, hP, hidle, hPs, hfl, hpend⟩ := script_setting c 62
    (chunkedAnswerBytes chunkedAnswer :: answers.map answerBytes) idle seg
  have := @C46_off_by_one_false asciiCase c Unit Unit Talker _ _ _ (oneConnector (chunkedPeer answers idle seg)) P hr _ hP
    hidle () HttpClient.new (chunkedPeer answers idle seg) (.inr ⟨rfl, fun _ => rfl⟩) hPs hfl hpend hc
    (sampleAsk [4, 4, 4, 4, 4]) chunkedAnswer (sampleAsk_proper _) chunkedAnswer_proper (by unfold Positive sampleAsk; decide)
    (by decide +kernel) (fun _ => rfl) (answers.map fun a => (sampleAsk [4, 4, 4, 4, 4], a)) (fun _ _ _ => rfl)
    (fun x hx => by
      obtain ⟨a, ha, rfl⟩ := List.mem_map.1 hx
      have hb : ∀ a ∈ answers, a.body.length = 3 ∧ ∃ b, a = okAnswer b ∧ b.length < 2 ^ 64 := by
        intro a ha
        simp only [answers, List.mem_cons, List.not_mem_nil, or_false] at ha
        rcases ha with rfl | rfl | rfl <;> exact ⟨rfl, _, rfl, by decide⟩
      obtain ⟨_, b, rfl, hlt⟩ := hb a ha
      refine ⟨sampleAsk_proper _, okAnswer_proper _ hlt, by unfold Positive sampleAsk; dsimp only; decide, fun y hy => ?_⟩
      obtain ⟨a', ha', rfl⟩ := List.mem_map.1 hy
      rw [(hb a' ha').1]; dsimp only; decide)
    (by rw [List.map_map]; exact chunkedPeer_serves c answers idle seg) ()
  rw [List.map_map] at this
  obtain ⟨_, h1, h2⟩ := this
  obtain ⟨st, rs, h3, _, h4⟩ := h2 0 _ _ rfl (by decide)
  obtain ⟨st', rs', h5, _, h6⟩ := h2 1 _ _ rfl (by decide)
  exact ⟨h1 (by simp [answers]), ⟨st, rs, h3, h4⟩, st', rs', h5, h6⟩

/-- With `std`, whether the next request works depends on the segments in which the chunked response arrives. If the
end of the body comes in one segment, it does... -/
theorem C46_std_whole : let _ := asciiCase
    (history (c := ⟨true⟩) (oneConnector (chunkedPeer [okAnswer b!"hi"] none 10000))
      [(sampleAsk [4, 4, 4, 4, 4]).exchange, (sampleAsk [4, 4, 4, 4, 4]).exchange] HttpClient.new ()).1[1]? =
      some (.ok (.got .OK (okAnswer b!"hi").headers [.ok b!"hi", .ok [], .ok [], .ok [], .ok []])) := by
  decide +kernel

/-- ... if it comes byte by byte, the next request fails. So the property is false with `std` as well. -/
theorem C46_std_bytewise_false : let _ := asciiCase
    (history (c := ⟨true⟩) (oneConnector (chunkedPeer [okAnswer b!"hi"] none 0))
      [(sampleAsk [4, 4, 4, 4, 4]).exchange, (sampleAsk [4, 4, 4, 4, 4]).exchange] HttpClient.new ()).1[1]? =
      some (.ok (.failed .unexpectedEof)) := by
  decide +kernel

/-- Witness for `C46_chunked_partial`: the end of the body comes in one segment, with `std`. -/
example : let _ := asciiCase
    ∃ st1 rs1 st2 rs2, (history (c := ⟨true⟩) (oneConnector (chunkedPeer [okAnswer b!"hi"] none 10000))
      [(sampleAsk [4, 4, 4, 4, 4]).exchange, (sampleAsk [4, 4, 4, 4, 4]).exchange] HttpClient.new ()).1 =
        [.ok (.got st1 chunkedAnswer.headers rs1), .ok (.got st2 (okAnswer b!"hi").headers rs2)] ∧
      st1.toCode = 200 ∧ ReadAll rs1 b!"abc" ∧ st2.toCode = 200 ∧ ReadAll rs2 b!"hi" := by
  obtain ⟨P, hr, hP, hidle, hPs, hfl, hpend⟩ := script_setting ⟨true⟩ 62
    (chunkedAnswerBytes chunkedAnswer :: [okAnswer b!"hi"].map answerBytes) none 10000
  have hleft : let _ := asciiCase
      (poolGet () (history (c := ⟨true⟩) (oneConnector (chunkedPeer [okAnswer b!"hi"] none 10000))
        [(sampleAsk [4, 4, 4, 4, 4]).exchange] HttpClient.new ()).2.1.streams).map trace = some [] := by decide +kernel
  exact @C46_chunked_partial asciiCase ⟨true⟩ Unit Unit Talker _ _ _ _ P hr _ hP hidle () HttpClient.new
    (chunkedPeer [okAnswer b!"hi"] none 10000) (.inr ⟨rfl, fun _ => rfl⟩) hPs hfl hpend (sampleAsk [4, 4, 4, 4, 4])
    (sampleAsk [4, 4, 4, 4, 4]) chunkedAnswer (okAnswer b!"hi") (sampleAsk_proper _) (sampleAsk_proper _) chunkedAnswer_proper
    (okAnswer_proper _ (by decide)) (fun _ => rfl) (fun _ => rfl) (by unfold Positive sampleAsk; decide)
    (by unfold Positive sampleAsk; decide) (by decide +kernel) (by decide)
    (chunkedPeer_serves ⟨true⟩ [okAnswer b!"hi"] none 10000) ()
    (fun s1 h => by dsimp only at hleft; rw [h] at hleft; simpa [idleEvs] using hleft)

/-- The bytes of a response. -/
def anyBytes : AnyAnswer → Bytes
  | .sized a => answerBytes a
  | .chunked a => chunkedAnswerBytes a

/-- Witness for `C46_together_partial`: chunked, of declared length, chunked and chunked, each in one segment. -/
example (idle : Option Err) : let _ := asciiCase
    let list := [.chunked chunkedAnswer, .sized (okAnswer b!"hi"), .chunked chunkedAnswer, .chunked chunkedAnswer]
    let outs := (history (c := ⟨true⟩) (oneConnector (script 62 (list.map anyBytes) idle 8191))
      (list.map fun _ => (sampleAsk [4, 4, 4, 4, 4]).exchange) HttpClient.new ()).1
    outs.length = 4 ∧ ∀ (k : Nat) ans, list[k]? = some ans →
      ∃ st rs, outs[k]? = some (.ok (.got st ans.headers rs)) ∧ st.toCode = ans.status.toCode ∧ ReadAll rs ans.body := by
  intro _ list outs
  obtain ⟨P, hr, hP, hidle, hPs, hfl, hpend, htog⟩ := script_together ⟨true⟩ 62 (list.map anyBytes) idle 8191 (by omega)
    (by decide +kernel)
  have hserves := script_serves (AnyAnswer.Sent ⟨true⟩) (n := 62) (by omega) idle 8191
    (list.map fun a => (sampleAsk [4, 4, 4, 4, 4], a, anyBytes a))
    (by
      intro x hx bytes hb
      obtain ⟨a, _, rfl⟩ := List.mem_map.1 hx
      exact sampleAsk_bytes _ _ hb)
    (by
      intro x hx
      obtain ⟨a, _, rfl⟩ := List.mem_map.1 hx
      cases a with
      | sized a => exact answer_sent _ _
      | chunked a => exact chunkedAnswer_sent _ _)
  rw [List.map_map, List.map_map] at hserves
  have := @C46_together_partial asciiCase ⟨true⟩ Unit Unit Talker _ _ _ (oneConnector (script 62 (list.map anyBytes) idle 8191)) P hr _
    hP hidle () HttpClient.new (script 62 (list.map anyBytes) idle 8191) (.inr ⟨rfl, fun _ => rfl⟩) hPs hfl hpend rfl htog
    (list.map fun a => (sampleAsk [4, 4, 4, 4, 4], a)) (fun _ _ _ => rfl)
    (fun x hx => by
      obtain ⟨a, ha, rfl⟩ := List.mem_map.1 hx
      refine ⟨sampleAsk_proper _, ?_, by unfold Positive sampleAsk; dsimp only; decide, ?_⟩ <;>
        simp only [list, List.mem_cons, List.not_mem_nil, or_false] at ha
      · rcases ha with rfl | rfl | rfl | rfl
        · exact chunkedAnswer_proper
        · exact okAnswer_proper _ (by decide)
        · exact chunkedAnswer_proper
        · exact chunkedAnswer_proper
      · rcases ha with rfl | rfl | rfl | rfl <;> decide +kernel)
    (by
      rw [script_taken]
      exact hserves) ()
  rw [List.map_map] at this
  exact ⟨this.1, fun k ans hk => this.2 k _ ans (by rw [List.getElem?_map, hk]; rfl)⟩

end HttpIo
