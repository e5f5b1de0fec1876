import Verif.Spec.Asked
import Verif.Props.FileServer
import Verif.Props.Cut

/-! C192: the server with any handler, on any bytes whatsoever. -/

namespace HttpIo
open Spec

section
variable [CaseMap] {c : Cfg} {η σ ρ ε : Type} [LawfulReader σ] [ZeroReader σ] [LawfulWriter σ] [LawfulReader ρ] [ZeroReader ρ]

omit [CaseMap] in
/-- The response and what comes of it. -/
theorem respond_sends {P : σ → Prop} (hrel : Reliable c P) (r : ServerResponse c ρ)
    (s : σ) (hs : P s) {res : Res Unit} {out : Bytes} (h : SentReply r res out) :
    ∃ x b d, respond c r s = (x, b, d) ∧ (match x with | .ok () => .ok () | .error e => .err e) = res ∧ sent d = sent s ++ out := by
  obtain ⟨s1, w1, w2⟩ := hrel.writePieces_ok (ps := r.headPieces) hs
  obtain ⟨_, p, _, g2, g3⟩ := writePieces_sent w1
  cases h with
  | whole hv1 hv2 hd he =>
    obtain ⟨k, b, s2, w3, w4⟩ := hrel.copy_ok (r := r.body) (n := 0) w2 hd he
    obtain ⟨bs', t2, f1, f2, f3, _⟩ := C33_copy_ok c _ _ _ _ _ _ w3
    rw [f1.ended_unique f2 hd he] at f3
    refine ⟨.ok (), b, s2, ?_, rfl, ?_⟩
    · unfold respond HttpResponse.serialize
      rw [w1]; dsimp only; rw [w3]
    · rw [f3, g2, g3 rfl, response_versioned r hv1 hv2, List.append_assoc]
  | broken hv1 hv2 hd hf =>
    obtain ⟨b, s2, w3, w4, w5⟩ := copy_fails hrel (r := r.body) (n := 0) w2 hd hf
    refine ⟨.error _, b, s2, ?_, rfl, ?_⟩
    · unfold respond HttpResponse.serialize
      rw [w1]; dsimp only; rw [w3]
    · rw [w4, g2, g3 rfl, response_versioned r hv1 hv2, List.append_assoc]

/-- What is made of the handler's reply. -/
theorem serve_reply {P : σ → Prop} (hra : ReadsApart σ) (hrel : Reliable c P) (hkept : ∀ s n, P s → P (read s n).2)
    (h : Handler c η σ ρ ε) (ho : OnlyReads h) (errText : Err → Bytes) (s : σ) (self : η) (hs : P s)
    {r : HttpRequest c (BufReader c σ)} {s1 : BufReader c σ} (hp : HttpRequest.deserialize c (BufReader.new c s) = (.ok r, s1))
    (ha : Acceptable r) {res : Res Unit} {out : Bytes} (hv : ServedAs h (handled h r.method r.uri r.body self).1 res out) :
    ∃ d self', h.serveOne errText (.ok s) self = (res, some d, self') ∧
      Afterwards h (handled h r.method r.uri r.body self).2.2 (handled h r.method r.uri r.body self).1 self' ∧ sent d = sent s ++ out := by
  have hsent := inner_sent hra h ho errText s self
  have hP := inner_kept ⟨hkept⟩ h ho errText self hs
  have hi := serveOneInner_handled h errText self hp ha
  rcases hx : handled h r.method r.uri r.body self with ⟨x, b, st⟩
  rw [hx] at hi hv
  rw [hi] at hsent hP
  dsimp only at hsent hP hv ⊢
  cases hv with
  | @answer a _ _ hr =>
    obtain ⟨y, rb, d, k1, k2, k3⟩ := respond_sends hrel a _ hP hr
    refine ⟨d, h.release rb st, ?_, .answer rb, by rw [k3, hsent]⟩
    unfold Handler.serveOne
    dsimp only
    rw [hi]
    dsimp only [Reply.mapErr]
    rw [k1]
    subst k2
    cases y <;> rfl
  | @error e _ _ hr =>
    obtain ⟨y, rb, d, k1, k2, k3⟩ := respond_sends hrel (h.into e) _ hP hr
    refine ⟨d, st, ?_, .error, by rw [k3, hsent]⟩
    unfold Handler.serveOne
    dsimp only
    rw [hi]
    dsimp only [Reply.mapErr]
    rw [k1]
    subst k2
    cases y <;> rfl
  | panic =>
    refine ⟨b.released s1, st, ?_, .panic, by rw [List.append_nil]; exact hsent⟩
    unfold Handler.serveOne
    dsimp only
    rw [hi]
    rfl

/-! ### C192 -/

/-- A header line that is cut within a character: the server panics, nothing is sent, and the handler does not hear of it. -/
theorem C192_panics (hra : ReadsApart σ) (h : Handler c η σ ρ ε) (ho : OnlyReads h) (errText : Err → Bytes) (s : σ) (self : η)
    (stop : Option Err) (input : Bytes) (ht : trace s = input.map .byte ++ endEvents stop) (hq : AsksFor c stop input .panics) :
    ∃ d, h.serveOne errText (.ok s) self = (.panic, some d, self) ∧ sent d = sent s := by
  cases hq with
  | cut hc =>
    have hp := (C11_request_panics_iff c (BufReader.new c s)).2 (by rw [BufReader.trace_new, ht]; exact hc)
    rcases hd : HttpRequest.deserialize c (BufReader.new c s) with ⟨x, s1⟩
    rw [hd] at hp
    dsimp only at hp
    subst hp
    have hq := C52_handler_quiet hra h ho errText s self
    have hi := serveOneInner_panic h errText self hd
    rw [hi] at hq
    refine ⟨s1.inner, ?_, hq⟩
    unfold Handler.serveOne
    dsimp only
    rw [hi]

/-- No request: the server answers with 500 and the text of the fault, and the handler does not hear of it. -/
theorem C192_faulty {P : σ → Prop} (hra : ReadsApart σ) (hrel : Reliable c P) (hkept : ∀ s n, P s → P (read s n).2)
    (h : Handler c η σ ρ ε) (ho : OnlyReads h) (errText : Err → Bytes) (s : σ) (self : η) (hs : P s)
    (stop : Option Err) (hlr : stop ≠ some .lengthRequired) (input : Bytes) (ht : trace s = input.map .byte ++ endEvents stop) (e : Err)
    (hq : AsksFor c stop input (.faulty e)) :
    ∃ d, h.serveOne errText (.ok s) self = (.ok (), some d, self) ∧
      sent d = sent s ++ (responseHead (utf8 "500 Internal Server Error") [] ++ errText e) := by
  cases hq with
  | malformed hx =>
    have hp := (C188_request c (BufReader.new c s) e).2 (by rw [BufReader.trace_new, ht]; exact hx)
    have hno : ∀ e', Ev.fault e' ∈ trace s → stop = some e' := by
      intro e' hx; rw [ht] at hx; cases stop <;> simp_all [endEvents]
    obtain ⟨g1, g2, d, g3, g4⟩ := C51_unparsable_partial hra hrel hkept h ho
      errText s self hs e hp (fun e' hx he => hlr (by rw [hno e' hx, he]))
    exact ⟨d, Prod.ext g1 (Prod.ext g3 g2), by rw [g4, List.append_assoc]⟩

/-- An upload of unknown length: the server answers with 411, and the handler does not hear of it. -/
theorem C192_noLength {P : σ → Prop} (hra : ReadsApart σ) (hrel : Reliable c P) (hkept : ∀ s n, P s → P (read s n).2)
    (h : Handler c η σ ρ ε) (ho : OnlyReads h) (errText : Err → Bytes) (s : σ) (self : η) (hs : P s)
    (stop : Option Err) (hf : Final c stop) (input : Bytes) (ht : trace s = input.map .byte ++ endEvents stop)
    (hq : AsksFor c stop input .noLength) :
    ∃ d, h.serveOne errText (.ok s) self = (.ok (), some d, self) ∧
      sent d = sent s ++ (responseHead (utf8 "411 Length Required") [] ++ utf8 "length required") := by
  cases hq with
  | noLength hq hm hn =>
    obtain ⟨r, s1, f1, f2, f3, f4, f5⟩ := requests_read hf hq s ht
    have hi := serveOneInner_refused h errText self f1 (fun ha => ha (by rw [f2]; exact hm) (f4.1 hn))
    obtain ⟨h1, h2, h3, t', h4, h5⟩ := fromString_body (c := c) (ρ := ρ) .LengthRequired b!"length required"
    obtain ⟨g1, d, g2, _, g3⟩ := serve_succeeds hra hrel hkept _ ho errText s self hs _ (.inr (by rw [hi])) h1 _ t' h4 h5
    rw [h2, h3, show HttpStatus.display .LengthRequired = utf8 "411 Length Required" by decide +kernel,
      show b!"length required" = utf8 "length required" by decide +kernel] at g3
    refine ⟨d, Prod.ext g1 (Prod.ext g2 ?_), by rw [g3, List.append_assoc]⟩
    unfold Handler.serveOne
    dsimp only
    rw [hi]
    dsimp only
    rcases respond c (ServerResponse.fromString c (ρ := ρ) .LengthRequired b!"length required") s1.inner with ⟨_ | _, _, _⟩ <;> rfl

/-- Any other request without a body of its own: the handler's function for the method is called once, with the target, and what comes of
its reply is what is sent. -/
theorem C192_plain {P : σ → Prop} (hra : ReadsApart σ) (hrel : Reliable c P) (hkept : ∀ s n, P s → P (read s n).2)
    (h : Handler c η σ ρ ε) (ho : OnlyReads h) (errText : Err → Bytes) (s : σ) (self : η) (hs : P s)
    (stop : Option Err) (hf : Final c stop) (input : Bytes) (ht : trace s = input.map .byte ++ endEvents stop)
    (m : HttpMethod) (target : Bytes) (hq : AsksFor c stop input (.plain m target)) :
    ∀ body res out, ServedAs h (handled h m target body self).1 res out →
      ∃ d self', h.serveOne errText (.ok s) self = (res, some d, self') ∧
        Afterwards h (handled h m target body self).2.2 (handled h m target body self).1 self' ∧ sent d = sent s ++ out := by
  cases hq with
  | plain hq hm =>
    obtain ⟨r, s1, f1, f2, f3, f4, f5⟩ := requests_read hf hq s ht
    subst f2; subst f3
    intro body res out hv
    have e1 : (handled h r.method r.uri body self).1 = (handled h r.method r.uri r.body self).1 := by
      cases hx : r.method <;> first | rfl | (rw [hx] at hm; simp at hm)
    have e2 : (handled h r.method r.uri body self).2.2 = (handled h r.method r.uri r.body self).2.2 := by
      cases hx : r.method <;> first | rfl | (rw [hx] at hm; simp at hm)
    rw [e1] at hv ⊢
    rw [e2]
    exact serve_reply hra hrel hkept h ho errText s self hs f1 (fun ha => absurd ha hm) hv

/-- An upload: the same, and the body that the handler is given has exactly the data of the rules, and then ends or fails. -/
theorem C192_upload {P : σ → Prop} (hra : ReadsApart σ) (hrel : Reliable c P) (hkept : ∀ s n, P s → P (read s n).2)
    (h : Handler c η σ ρ ε) (ho : OnlyReads h) (errText : Err → Bytes) (s : σ) (self : η) (hs : P s)
    (stop : Option Err) (hf : Final c stop) (input : Bytes) (ht : trace s = input.map .byte ++ endEvents stop)
    (m : HttpMethod) (target bs : Bytes) (r : Option Err) (hq : AsksFor c stop input (.upload m target bs r)) :
    ∃ body, (match r with | none => Yields body bs | some e => FailsAfter body bs e) ∧
      ∀ res out, ServedAs h (handled h m target body self).1 res out →
      ∃ d self', h.serveOne errText (.ok s) self = (res, some d, self') ∧
        Afterwards h (handled h m target body self).2.2 (handled h m target body self).1 self' ∧ sent d = sent s ++ out := by
  cases hq with
  | upload hq hm hc =>
    obtain ⟨x, s1, f1, f2, f3, f4, f5⟩ := requests_read hf hq s ht
    subst f2; subst f3
    have ht := f5 _ _ hc
    refine ⟨x.body, ?_, fun res out hv => serve_reply hra hrel hkept h ho errText s self hs f1 (fun _ hx => ?_) hv⟩
    · cases r with
      | none => exact yields_of_trace (by rw [ht, endEvents, List.append_nil])
      | some e => exact failsAfter_of_trace (t := []) (by rw [ht, endEvents])
    · obtain ⟨k1, k2⟩ := f4.2 hx
      cases hc with
      | chunked g => exact k1 g
      | limited _ g => exact k2 _ g

end

section
variable [CaseMap] {c : Cfg}

/-- All bytes ask something. -/
theorem C192_total (c : Cfg) (stop : Option Err) (input : Bytes) : ∃ q, AsksFor c stop input q := by
  by_cases hc : CutRequest c (input.map .byte ++ endEvents stop)
  · exact ⟨_, .cut hc⟩
  by_cases hq : ∃ m target hist rest, Requests c stop input m target hist rest
  case neg =>
    obtain ⟨e, he⟩ := (C188_total c (input.map .byte ++ endEvents stop)).1.2 ⟨hc, by
      rintro line hist t' m target major minor ⟨h1, h2⟩
      obtain ⟨rest, hr⟩ : ∃ rest : Bytes, t' = rest.map .byte ++ endEvents stop := by
        obtain ⟨_, _, _, h3, _⟩ := h2
        exact delivers_left h3
      subst hr
      exact hq ⟨_, _, _, _, line, _, _, h1, h2⟩⟩
    exact ⟨_, .malformed he⟩
  obtain ⟨m, target, hist, rest, hq⟩ := hq
  by_cases hm : m = .Put ∨ m = .Post
  case neg => exact ⟨_, .plain hq hm⟩
  by_cases h1 : LastNamed "transfer-encoding" hist (utf8 "chunked")
  · obtain ⟨d, r, h⟩ := C185_total c stop rest
    exact ⟨_, .upload hq hm (.chunked h1 h)⟩
  · by_cases h2 : ∃ v, LastNamed "content-length" hist v
    · obtain ⟨v, h2⟩ := h2
      have hq' := hq
      obtain ⟨_, _, _, _, _, _, _, _, _, _, h6⟩ := hq'
      obtain ⟨n, hn, _⟩ := h6 v h2
      exact ⟨_, .upload hq hm (.limited h1 h2 hn)⟩
    · exact ⟨_, .noLength hq hm ⟨h1, fun v hv => h2 ⟨v, hv⟩⟩⟩

/-- And one thing only. -/
theorem C192_unique {stop : Option Err} (hf : Final c stop) {input : Bytes} {q q' : Asked} (h : AsksFor c stop input q)
    (h' : AsksFor c stop input q') : q = q' := by
  have ht := stoppedConn_trace input stop
  have read := fun {m target hist rest} (h : Requests c stop input m target hist rest) => requests_read hf h (stoppedConn input stop) ht
  have cut : CutRequest c (input.map .byte ++ endEvents stop) → ∀ {m target hist rest}, ¬ Requests c stop input m target hist rest := by
    intro hc m target hist rest hq
    obtain ⟨r, s1, g1, _⟩ := read hq
    have := (C11_request_panics_iff c (BufReader.new c (stoppedConn input stop))).2 (by rw [BufReader.trace_new, ht]; exact hc)
    rw [g1] at this; simp at this
  have fault : ∀ {e}, RequestFault c (input.map .byte ++ endEvents stop) e → ¬ CutRequest c (input.map .byte ++ endEvents stop) ∧
      ∀ {m target hist rest}, ¬ Requests c stop input m target hist rest := by
    intro e he
    obtain ⟨k1, k2⟩ := (C188_total c (input.map .byte ++ endEvents stop)).1.1 ⟨e, he⟩
    exact ⟨k1, fun ⟨line, _, _, h1, h2⟩ => k2 _ _ _ _ _ _ _ ⟨h1, h2⟩⟩
  have same : ∀ {m target hist rest m' target' hist' rest'}, Requests c stop input m target hist rest →
      Requests c stop input m' target' hist' rest' → m = m' ∧ target = target' ∧ (NoLength hist ↔ NoLength hist') ∧
      ∀ {d e d' e'}, Carried c stop hist rest d e → Carried c stop hist' rest' d' e' → d = d' ∧ e = e' := by
    intro m target hist rest m' target' hist' rest' h h'
    obtain ⟨r, s1, f1, f2, f3, f4, f5⟩ := read h
    obtain ⟨r', s1', g1, g2, g3, g4, g5⟩ := read h'
    rw [f1] at g1
    simp only [Prod.mk.injEq, Res.ok.injEq] at g1
    obtain ⟨rfl, rfl⟩ := g1
    exact ⟨f2.symm.trans g2, f3.symm.trans g3, f4.trans g4.symm,
      fun k k' => endEvents_split ((f5 _ _ k).symm.trans (g5 _ _ k'))⟩
  have told : ∀ {hist rest d e}, Carried c stop hist rest d e → ¬ NoLength hist := by
    rintro hist rest d e hc ⟨k1, k2⟩
    cases hc with
    | chunked g => exact k1 g
    | limited _ g => exact k2 _ g
  cases h with
  | cut hc =>
    cases h' with
    | cut => rfl
    | malformed he => exact absurd hc (fault he).1
    | noLength h1 => exact absurd h1 (cut hc)
    | plain h1 => exact absurd h1 (cut hc)
    | upload h1 => exact absurd h1 (cut hc)
  | malformed he =>
    cases h' with
    | cut hc => exact absurd hc (fault he).1
    | malformed he' => rw [(C188_unique c _ _ _).1 he he']
    | noLength h1 => exact absurd h1 (fault he).2
    | plain h1 => exact absurd h1 (fault he).2
    | upload h1 => exact absurd h1 (fault he).2
  | noLength h1 h2 h3 =>
    cases h' with
    | cut hc => exact absurd h1 (cut hc)
    | malformed he => exact absurd h1 (fault he).2
    | noLength => rfl
    | plain k1 k2 => exact absurd ((same h1 k1).1 ▸ h2) k2
    | upload k1 _ k2 => exact absurd ((same h1 k1).2.2.1.1 h3) (told k2)
  | plain h1 h2 =>
    cases h' with
    | cut hc => exact absurd h1 (cut hc)
    | malformed he => exact absurd h1 (fault he).2
    | noLength k1 k2 => exact absurd ((same k1 h1).1 ▸ k2) h2
    | plain k1 => rw [(same h1 k1).1, (same h1 k1).2.1]
    | upload k1 k2 => exact absurd ((same k1 h1).1 ▸ k2) h2
  | upload h1 h2 h3 =>
    cases h' with
    | cut hc => exact absurd h1 (cut hc)
    | malformed he => exact absurd h1 (fault he).2
    | noLength k1 _ k3 => exact absurd ((same h1 k1).2.2.1.2 k3) (told h3)
    | plain k1 k2 => exact absurd ((same h1 k1).1 ▸ h2) k2
    | upload k1 k2 k3 =>
      obtain ⟨e1, e2⟩ := (same h1 k1).2.2.2 h3 k3
      rw [(same h1 k1).1, (same h1 k1).2.1, e1, e2]

end

/-- A handler that counts: it panics for the first upload, and takes the others; a GET is answered with a body that fails. -/
def countHandler (c : Cfg) [CaseMap] : Handler c Nat (Duplex Wire Sink) Wire Err :=
  { Handler.defaults c Nat (Duplex Wire Sink) Wire Err (fun _ => ServerResponse.fromString c .InternalServerError []) with
    get := fun _ n => (.ok (HttpResponse.new c .OK (.B ⟨[.data b!"a", .data b!"b", .fault isDir]⟩)), n + 1)
    put := fun _ body n => (if n = 0 then .panic else .ok (ServerResponse.fromString c .Created b!"taken"), body, n + 1) }

theorem countHandler_reads (c : Cfg) [CaseMap] : OnlyReads (countHandler c) := ⟨fun _ _ _ => ⟨[], rfl⟩, fun _ _ _ => ⟨[], rfl⟩⟩

/-- Witness for `C192_upload` and `C192_unique`: an upload in chunks that is cut off. The first makes the handler panic, the second is
taken. -/
example (c : Cfg) (stop : Option Err) (hf : Final c stop) : let _ := asciiCase
    let input := b!"PUT /new HTTP/1.1\r\nTransfer-Encoding: chunked\r\n\r\n2\r\nab\r\n5\r\nde"
    (∀ q, AsksFor c stop input q ↔ q = .upload .Put b!"/new" b!"abde" (some (cutError c stop))) ∧
    (∃ d, (countHandler c).serveOne (fun _ => []) (.ok (stoppedConn input stop)) 0 = (.panic, some d, 1) ∧ sent d = []) ∧
    ∃ d, (countHandler c).serveOne (fun _ => []) (.ok (stoppedConn input stop)) 5 = (.ok (), some d, 6) ∧
      sent d = b!"HTTP/1.1 201 Created\r\n\r\ntaken" := by
  intro _ input
  have hhex : ∀ (t : Bytes) (n : Nat), parseHex64 t = .ok n → UnsignedText 16 t n := fun t n h => ((C07_hex_parse t n).1 h).1
  have hq : AsksFor c stop input (.upload .Put b!"/new" b!"abde" (some (cutError c stop))) := by
    refine .upload (hist := [(b!"Transfer-Encoding", b!"chunked")]) (rest := b!"2\r\nab\r\n5\r\nde")
      ⟨b!"PUT /new HTTP/1.1", 1, 1, ?_, ?_⟩ (.inl rfl) (.chunked ?_ ?_)
    · refine ⟨b!"HTTP/1.1", ⟨b!"PUT", b!" ", b!" ", b!"HTTP/1.1", rfl, ⟨by decide, by decide⟩, ⟨by decide, by decide⟩,
        ⟨by decide, by decide⟩, ⟨by decide, by decide⟩, ?_, ⟨by decide, .inl rfl⟩, by decide⟩,
        49, 49, [], by decide +kernel, .dec 1 (by decide) (by decide), .dec 1 (by decide) (by decide)⟩
      rw [methodName_bytes]; decide
    · refine ⟨[b!"Transfer-Encoding: chunked"], rawLine_of (by decide) (by decide) (by decide), ?_, ?_, ?_, by decide, ?_⟩
      · intro l hl
        simp only [List.mem_cons, List.not_mem_nil, or_false] at hl
        subst hl; exact rawLine_of (by decide) (by decide) (by decide)
      · exact delivers_map c (blockBytes [b!"PUT /new HTTP/1.1", b!"Transfer-Encoding: chunked"]) (b!"2\r\nab\r\n5\r\nde".map .byte ++ endEvents stop)
      · exact Folded.line (first := b!"Transfer-Encoding: chunked") (conts := []) (rest := []) (by simp) (by simp) .nil
      · rintro v ⟨pre, k, post, h1, h2, _⟩
        have hk : (k, v) ∈ [(b!"Transfer-Encoding", b!"chunked")] := by rw [h1]; simp
        simp only [List.mem_cons, List.not_mem_nil, or_false, Prod.mk.injEq] at hk
        rw [utf8_contentLength] at h2
        rcases hk with ⟨rfl, _⟩; exact absurd h2 (by decide)
    · refine ⟨[], b!"Transfer-Encoding", [], by rw [show utf8 "chunked" = b!"chunked" by decide +kernel]; rfl, ?_, by simp⟩
      dsimp only
      rw [show utf8 "transfer-encoding" = b!"transfer-encoding" by decide +kernel]; decide
    · exact .chunk (ch := ⟨b!"2", b!"ab", b!"\r\n"⟩) (rest := b!"5\r\nde") (d := b!"de") ⟨hhex _ _ (by decide +kernel), by decide, by decide, rfl⟩
        (.short (size := b!"5") (d := b!"de") (n := 5) (hhex _ _ (by decide +kernel)) (by decide) (by decide))
  refine ⟨fun q => ⟨fun h => C192_unique hf h hq, fun h => h ▸ hq⟩, ?_, ?_⟩
  · obtain ⟨body, _, h⟩ := C192_upload duplex_readsApart (duplex_reliable (σ := Sink) (sink_reliable c)) (fun _ _ h => h) (countHandler c)
      (countHandler_reads c) (fun _ => []) (stoppedConn input stop) 0 (by simp [stoppedConn]) stop hf input (stoppedConn_trace input stop) _ _ _ _ hq
    obtain ⟨d, self', h1, h2, h3⟩ := h .panic [] .panic
    have : self' = 1 := by cases h2; rfl
    subst this
    exact ⟨d, h1, h3⟩
  · obtain ⟨body, _, h⟩ := C192_upload duplex_readsApart (duplex_reliable (σ := Sink) (sink_reliable c)) (fun _ _ h => h) (countHandler c)
      (countHandler_reads c) (fun _ => []) (stoppedConn input stop) 5 (by simp [stoppedConn]) stop hf input (stoppedConn_trace input stop) _ _ _ _ hq
    obtain ⟨k1, k2, k3, t', k4, k5⟩ := fromString_body (c := c) (ρ := Wire) .Created b!"taken"
    obtain ⟨d, self', h1, h2, h3⟩ := h _ _ (.answer (.whole (by rw [k1]; decide) (by rw [k1]; decide) k4 k5))
    have : self' = 6 := by cases h2; rfl
    subst this
    refine ⟨d, h1, ?_⟩
    rw [h3, k1, k2, k3]
    show [] ++ (versionedHead 1 1 (HttpStatus.display .Created) [] ++ b!"taken") = _
    rw [List.nil_append]
    decide +kernel

/-- Witness for `C192_plain`, `C192_total`, `C192_faulty`, `C192_noLength` and `C192_panics`: a GET answered with a body that fails, bytes that are no
request, an upload without a length, and a header line cut within a character. -/
example (c : Cfg) : let _ := asciiCase
    let served := fun input => ((countHandler c).serveOne (fun _ => b!"?") (.ok (requestConn input)) 0)
    ((served b!"GET / HTTP/1.1\r\n\r\n").1 = .err isDir ∧ (served b!"GET / HTTP/1.1\r\n\r\n").2.1.map sent = some b!"HTTP/1.1 200 OK\r\n\r\nab" ∧
      (served b!"GET / HTTP/1.1\r\n\r\n").2.2 = 1) ∧
    ((served b!"BREW / HTTP/1.1\r\n\r\n").1 = .ok () ∧
      (served b!"BREW / HTTP/1.1\r\n\r\n").2.1.map sent = some b!"HTTP/1.1 500 Internal Server Error\r\n\r\n?" ∧
      (served b!"BREW / HTTP/1.1\r\n\r\n").2.2 = 0) ∧
    ((served b!"PUT / HTTP/1.1\r\n\r\n").1 = .ok () ∧
      (served b!"PUT / HTTP/1.1\r\n\r\n").2.1.map sent = some b!"HTTP/1.1 411 Length Required\r\n\r\nlength required" ∧
      (served b!"PUT / HTTP/1.1\r\n\r\n").2.2 = 0) ∧
    ((served b!"GET / HTTP/1.1\r\na:é\r\n\r\n").1 = .panic ∧ (served b!"GET / HTTP/1.1\r\na:é\r\n\r\n").2.1.map sent = some [] ∧
      (served b!"GET / HTTP/1.1\r\na:é\r\n\r\n").2.2 = 0) := by
  intro _ served
  refine ⟨⟨?_, ?_, ?_⟩, ⟨?_, ?_, ?_⟩, ⟨?_, ?_, ?_⟩, ?_, ?_, ?_⟩ <;> rcases c with ⟨_ | _⟩ <;> decide +kernel

/-- Those bytes ask just this. -/
example (c : Cfg) : let _ := asciiCase
    AsksFor c none b!"GET / HTTP/1.1\r\n\r\n" (.plain .Get b!"/") ∧ AsksFor c none b!"BREW / HTTP/1.1\r\n\r\n" (.faulty .parse) ∧
    AsksFor c none b!"PUT / HTTP/1.1\r\n\r\n" .noLength ∧ AsksFor c none b!"GET / HTTP/1.1\r\na:é\r\n\r\n" .panics := by
  intro _
  have none_last : ∀ (p : Bytes → Prop) (v : Bytes), ¬ LastWith p [] v := by rintro p v ⟨pre, k, post, h, _⟩; simp at h
  refine ⟨.plain (hist := []) (rest := []) ⟨b!"GET / HTTP/1.1", 1, 1, ?_, ?_⟩ (by simp), .malformed ?_,
    .noLength (m := .Put) (target := b!"/") (hist := []) (rest := []) ⟨b!"PUT / HTTP/1.1", 1, 1, ?_, ?_⟩ (.inl rfl) ⟨none_last _ _, none_last _⟩, .cut ?_⟩
  · refine ⟨b!"HTTP/1.1", ⟨b!"GET", b!" ", b!" ", b!"HTTP/1.1", rfl, ⟨by decide, by decide⟩, ⟨by decide, by decide⟩,
      ⟨by decide, by decide⟩, ⟨by decide, by decide⟩, ?_, ⟨by decide, .inl rfl⟩, by decide⟩,
      49, 49, [], by decide +kernel, .dec 1 (by decide) (by decide), .dec 1 (by decide) (by decide)⟩
    rw [methodName_bytes]; decide
  · exact ⟨[], rawLine_of (by decide) (by decide) (by decide), by simp, delivers_map c (blockBytes [b!"GET / HTTP/1.1"]) [], .nil, by simp,
      fun v h => absurd h (none_last _ v)⟩
  · have h : (HttpRequest.deserialize c (requestConn b!"BREW / HTTP/1.1\r\n\r\n")).1 = .err .parse :=
      err_of (by rcases c with ⟨_ | _⟩ <;> decide +kernel)
    have := (C188_request c _ _).1 h
    rw [requestConn_trace] at this
    rwa [endEvents, List.append_nil]
  · refine ⟨b!"HTTP/1.1", ⟨b!"PUT", b!" ", b!" ", b!"HTTP/1.1", rfl, ⟨by decide, by decide⟩, ⟨by decide, by decide⟩,
      ⟨by decide, by decide⟩, ⟨by decide, by decide⟩, ?_, ⟨by decide, .inl rfl⟩, by decide⟩,
      49, 49, [], by decide +kernel, .dec 1 (by decide) (by decide), .dec 1 (by decide) (by decide)⟩
    rw [methodName_bytes]; decide
  · exact ⟨[], rawLine_of (by decide) (by decide) (by decide), by simp, delivers_map c (blockBytes [b!"PUT / HTTP/1.1"]) [], .nil, by simp,
      fun v h => absurd h (none_last _ v)⟩
  · have h := (C11_no_panic_false c (requestConn b!"GET / HTTP/1.1\r\na:é\r\n\r\n") []).1
      (by rw [requestConn_trace]; exact delivers_map' c _)
    have := (C11_request_panics_iff c _).1 h
    rw [requestConn_trace] at this
    rwa [endEvents, List.append_nil]

end HttpIo
