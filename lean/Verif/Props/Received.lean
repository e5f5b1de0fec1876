import Verif.Spec.Received
import Verif.Props.FileServer
import Verif.Props.Client
import Verif.Lemmas.Script

/-! C187: what the one-shot functions of the client make of any bytes whatsoever. -/

namespace HttpIo
open Spec

/-! ### The response -/

theorem statusFor_fromCode (n : UInt32) : StatusFor (HttpStatus.fromCode n) n.toNat := by
  refine ⟨by rw [C01_code_lossless], fun st' h => ?_⟩
  have h' : st'.toCode = n := UInt32.toNat.inj h
  by_cases hu : ∃ m, st' = .Unknown m
  · exact .inr hu
  · left
    rw [← h']
    exact ((C01_status_lossless st').2 fun ⟨m, hm, _⟩ => hu ⟨m, hm⟩).symm

theorem statusFor_unique {st st' : HttpStatus} {code : Nat} (h : StatusFor st code) (h' : StatusFor st' code) : st = st' := by
  rcases h.2 st' h'.1 with g | ⟨n, g⟩
  · exact g.symm
  · rcases h'.2 st h.1 with k | ⟨m, k⟩
    · exact k
    · subst g; subst k
      have h1 : m.toNat = code := h.1
      have h2 : n.toNat = code := h'.1
      rw [UInt32.toNat.inj (h1.trans h2.symm)]

section
variable [CaseMap] {c : Cfg} {σ : Type} [LawfulReader σ] [ZeroReader σ]

omit [ZeroReader σ] in
theorem response_sorted {s s' : σ} {r : HttpResponse c (BufReader c σ)} (h : HttpResponse.deserialize c s = (.ok r, s')) :
    SortedNames r.headers.entries ∧ StatusFor r.status r.status.toCode.toNat := by
  unfold HttpResponse.deserialize at h
  rcases h1 : parseHead c parseStatusLine s with ⟨⟨⟨v, st⟩, hs, enc, n⟩ | e | _, s1⟩ <;> rw [h1] at h
  · simp only [Prod.mk.injEq, Res.ok.injEq] at h
    obtain ⟨rfl, rfl⟩ := h
    obtain ⟨line, hist, k1, k2, k3⟩ := head_sound h1
    have hl : RawLine line := by obtain ⟨_, hl, _⟩ := k2; exact hl
    obtain ⟨code, k4, k5⟩ := (statusLine_ok_iff ((validUtf8_iff _).2 hl.2.2) _ _).1 k1
    refine ⟨(parseHead_framing h1).1, ?_⟩
    dsimp only
    rw [k5, C01_code_lossless]
    exact statusFor_fromCode _
  · simp at h
  · simp at h

/-- The response that was read, and its body. -/
theorem responds_read {stop : Option Err} (hf : Final c stop) {input rest : Bytes} {code : Nat} {hist : List (Bytes × Bytes)}
    (h : Responds c stop input code hist rest) (s : σ) (ht : trace s = input.map .byte ++ endEvents stop) :
    ∃ r s1, HttpResponse.deserialize c s = (.ok r, s1) ∧ StatusFor r.status code ∧
      ∀ d e, ReplyBody c stop hist rest d e → trace r.body = d.map .byte ++ endEvents e := by
  obtain ⟨line, major, minor, h1, h2⟩ := h
  obtain ⟨r, s1, f1, f2, _, f4, f6⟩ := C69_response_complete c s line ⟨major, minor⟩ code hist _ h1 (by rw [ht]; exact h2)
  have hfr := (C20_response c _ _ r f1).1
  obtain ⟨hsort, hst⟩ := response_sorted f1
  rw [f4] at hst
  have l1 : CaseMap.lower (utf8 "transfer-encoding") = utf8 "transfer-encoding" := by
    rw [CaseMap.lower_ascii _ (by decide +kernel)]; decide +kernel
  have l2 : CaseMap.lower (utf8 "content-length") = utf8 "content-length" := by
    rw [CaseMap.lower_ascii _ (by decide +kernel)]; decide +kernel
  have u1 : utf8 "transfer-encoding" = b!"transfer-encoding" := by decide +kernel
  have u2 : utf8 "content-length" = b!"content-length" := by decide +kernel
  have u3 : utf8 "chunked" = b!"chunked" := by decide +kernel
  have a1 := (f6 (utf8 "transfer-encoding")).1
  have a2 := (f6 (utf8 "content-length")).1
  unfold HttpHeaders.get at a1 a2
  rw [l1] at a1
  rw [l2] at a2
  have m1 : LastNamed "transfer-encoding" hist (utf8 "chunked") ↔ (b!"transfer-encoding", b!"chunked") ∈ r.headers.entries := by
    rw [← mapGet_iff hsort, ← u1, ← u3]; exact (a1 _).symm
  have m2 : ∀ v, LastNamed "content-length" hist v ↔ (b!"content-length", v) ∈ r.headers.entries := by
    intro v; rw [← mapGet_iff hsort, ← u2]; exact (a2 _).symm
  refine ⟨r, s1, f1, hst, fun d e hc => ?_⟩
  obtain ⟨_, enc, len, hb⟩ := response_under f1
  have hft := framed_trace (c := c) enc len (BufReader.new c s1)
  rw [hb] at hfr
  rw [hb]
  rw [BufReader.trace_new, f2] at hft
  cases hc with
  | told hc =>
    cases hc with
    | chunked g1 g2 =>
      have := framedBy_unique hsort hfr (.chunked (m1.1 g1))
      rw [(hft.1 this).1, dechunks_trace hf g2]
    | @limited v n g1 g2 g3 =>
      have hlt : LengthText v n := by
        obtain ⟨_, _, _, _, _, _, h6⟩ := h2
        obtain ⟨k, k1, k2⟩ := h6 v g2
        have := unsignedText_same k1 g3
        subst this
        exact ⟨k1, k2⟩
      have := framedBy_unique hsort hfr (.limited (fun hx => g1 (m1.2 hx)) ((m2 v).1 g2) hlt)
      rw [hft.2.1 n this, limitTrace_stop]
  | tilClose hn =>
    have := framedBy_unique hsort hfr (.tilClose (fun hx => hn.1 (m1.2 hx)) fun v hx => hn.2 v ((m2 v).2 hx))
    rw [hft.2.2 this]

end

/-! ### The call -/

section
variable [CaseMap] {c : Cfg} {ρ σ τ ω α : Type} [LawfulReader ρ] [ZeroReader ρ] [LawfulWriter σ] [LawfulReader τ]

/-- What the one-shot functions make of the response (see `sendRequest`). -/
def madeOf {κ : Type} (res : Res (HttpResponse c (BufReader c κ))) : Res (HttpBody c (BufReader c κ)) :=
  match res with
  | .err e => .err e
  | .panic => .panic
  | .ok r => if r.status ≠ .OK then .err (.unexpectedStatus r.status) else .ok r.body

/-- On a transport that takes everything, a call comes to what the response comes to. -/
theorem sendRequest_response {P : σ → Prop} (hr : Reliable c P) (N : StreamConnector ω α (Duplex ρ σ))
    (b : HttpRequestBuilder c) (url : Url) (body : τ) (w w1 w2 : ω) (a : α) (d : Duplex ρ σ)
    (ha : N.toStreamAddr url w = (.ok a, w1)) (hc : N.connect a w1 = (.ok d, w2)) (hP : P d.wr)
    (hbody : (b.request.method.hasBody = true ∧ ∃ bs t', Delivers c (trace body) bs t' ∧ Ended c t') ∨
      (∀ (s : OutgoingRequest c (Duplex ρ σ)), copy c body s 0 = (.ok 0, body, s))) :
    ∃ d1 : Duplex ρ σ, trace d1 = trace d.rd ∧ sendRequest c N b url body w = (madeOf (HttpResponse.deserialize c d1).1, w2) := by
  have hr' := duplex_reliable (ρ := ρ) hr
  have hk := duplex_kept (σ := σ) d.rd
  obtain ⟨o, h1, h2⟩ := hr'.serialize_ok b.request (s := d) hP
  have h3 := hk.serialize (r := b.request) (s := d) rfl
  rw [h1] at h3
  obtain ⟨k, body', o', h4, h5, h6⟩ : ∃ k body' o', copy c body o 0 = (.ok k, body', o') ∧ P o'.socketOf.wr ∧
      o'.socketOf.rd = d.rd := by
    rcases hbody with ⟨hm, bs, t', hdel, hend⟩ | hnone
    · have hw : ∃ b, o = .WithBody b := by
        unfold HttpRequest.serialize at h1
        rcases hw : writePieces c (BufWriter.new c d) b.request.headPieces with ⟨_ | _, w'⟩
        · rw [hw] at h1; simp at h1
        · rw [hw] at h1
          dsimp only at h1
          rw [if_pos hm] at h1
          simp only [Except.ok.injEq] at h1
          exact ⟨_, h1.symm⟩
      obtain ⟨k, body', o', h4, h5, _⟩ := hr'.outgoing.copy_ok (r := body) (s := o) (n := 0) ⟨h2, hw⟩ hdel hend
      have h6 := (hk.outgoing (c := c)).copy (c := c) (r := body) (s := o) (n := 0) h3
      rw [h4] at h6
      exact ⟨k, body', o', h4, h5, h6⟩
    · exact ⟨0, body, o, hnone o, h2, h3⟩
  obtain ⟨d1, h7, h8⟩ := hr'.complete_ok h5
  have h9 := hk.complete h6
  rw [h7] at h9
  refine ⟨d1, by rw [Duplex.trace_eq, h9], ?_⟩
  have hfin : o'.finish = HttpResponse.deserialize c d1 := by unfold OutgoingRequest.finish; rw [h7]
  unfold sendRequest HttpRequestBuilder.send
  rw [ha]; dsimp only
  rw [hc]; dsimp only
  rw [h1]; dsimp only
  rw [h4]; dsimp only
  rw [hfin]
  rcases HttpResponse.deserialize c d1 with ⟨r | _ | _, _⟩
  · by_cases h : r.status ≠ .OK
    · simp only [madeOf, if_pos h]
    · simp only [madeOf, if_neg h]
  · rfl
  · rfl

omit [ZeroReader ρ] [LawfulWriter σ] [LawfulReader τ] in
theorem statusFor_ok {st : HttpStatus} {code : Nat} (h : StatusFor st code) : st = .OK ↔ code = 200 := by
  constructor
  · rintro rfl; rw [← h.1]; decide
  · rintro rfl
    rcases h.2 .OK (by decide) with h | ⟨n, h⟩
    · exact h.symm
    · simp at h

/-- What a call came to, by the events of the body. -/
def TraceFate {β : Type} [LawfulReader β] (res : Res β) : Fate → Prop
  | .panics => res = .panic
  | .fails e => res = .err e
  | .body d r => ∃ x, res = .ok x ∧ trace x = d.map .byte ++ endEvents r

theorem TraceFate.is {β : Type} [LawfulReader β] {res : Res β} {f : Fate} (h : TraceFate res f) : FateIs res f := by
  cases f with
  | panics => exact h
  | fails e => exact h
  | body d r =>
    obtain ⟨x, h1, h2⟩ := h
    cases r with
    | none => exact ⟨x, h1, yields_of_trace (by rw [h2, endEvents, List.append_nil])⟩
    | some e => exact ⟨x, h1, failsAfter_of_trace (t := []) (by rw [h2, endEvents])⟩

/-- What a reader of the answer is left with. -/
theorem received_fate {κ : Type} [LawfulReader κ] [ZeroReader κ] {stop : Option Err} (hstop : Final c stop)
    {input : Bytes} {f : Fate} (h : Received c stop input f) (s : κ) (ht : trace s = input.map .byte ++ endEvents stop) :
    TraceFate (madeOf (HttpResponse.deserialize c s).1) f := by
  cases h with
  | cut hc =>
    rw [(C11_response_panics_iff c s).2 (by rw [ht]; exact hc)]
    rfl
  | none hf =>
    rw [(C188_response c s _).2 (by rw [ht]; exact hf)]
    rfl
  | status h1 h2 h3 =>
    obtain ⟨r, s1, g1, g2, _⟩ := responds_read hstop h1 s ht
    rw [g1]
    have := statusFor_unique g2 h3
    subst this
    exact if_pos fun hx => h2 ((statusFor_ok g2).1 hx)
  | @body hist rest d e h1 h2 =>
    obtain ⟨r, s1, g1, g2, g3⟩ := responds_read hstop h1 s ht
    rw [g1]
    have hok : madeOf (.ok r) = .ok r.body := if_neg fun hx => hx ((statusFor_ok g2).2 rfl)
    rw [hok]
    exact ⟨_, rfl, g3 _ _ h2⟩

theorem get_traced {P : σ → Prop} (hr : Reliable c P) (N : StreamConnector ω α (Duplex ρ σ))
    (url : Url) (host : Bytes) (hs : AsciiText url.scheme) (hu : PlainHttp url ∨ SecureHttp url) (hhost : url.host = some host)
    (w w1 w2 : ω) (a : α) (d : Duplex ρ σ)
    (ha : N.toStreamAddr url w = (.ok a, w1)) (hc : N.connect a w1 = (.ok d, w2)) (hP : P d.wr)
    (stop : Option Err) (hstop : Final c stop) (input : Bytes) (ht : trace d.rd = input.map .byte ++ endEvents stop) :
    ∀ f, Received c stop input f → ∃ res, clientGet c N (some url) w = (res, w2) ∧ TraceFate res f := by
  obtain ⟨s, h1, _⟩ := HttpUrl.tryFrom_ok hs hu hhost
  obtain ⟨b, h2, h3, h4, h5, h6⟩ := HttpRequestBuilder.new_ok c ⟨url, s, host⟩ .Get
  have : clientGet c N (some url) w = sendRequest c N b url EmptyReader.mk w := by
    unfold clientGet HttpRequestBuilder.get
    dsimp only
    rw [h1, h2]
  rw [this]
  obtain ⟨d1, g1, g2⟩ := sendRequest_response hr N b url EmptyReader.mk w w1 w2 a d ha hc hP (.inr fun s => copy_empty s 0)
  rw [g2]
  exact fun f hf => ⟨_, rfl, received_fate hstop hf d1 (by rw [g1, ht])⟩

/-- `client::get`: the peer sends these bytes, then the connection ends or fails, and the writing side takes everything. What the rules say is what comes of
it. -/
theorem C187_get {P : σ → Prop} (hr : Reliable c P) (N : StreamConnector ω α (Duplex ρ σ))
    (url : Url) (host : Bytes) (hs : AsciiText url.scheme) (hu : PlainHttp url ∨ SecureHttp url) (hhost : url.host = some host)
    (w w1 w2 : ω) (a : α) (d : Duplex ρ σ)
    (ha : N.toStreamAddr url w = (.ok a, w1)) (hc : N.connect a w1 = (.ok d, w2)) (hP : P d.wr)
    (stop : Option Err) (hstop : Final c stop) (input : Bytes) (ht : trace d.rd = input.map .byte ++ endEvents stop) :
    ∀ f, Received c stop input f → ∃ res, clientGet c N (some url) w = (res, w2) ∧ FateIs res f := by
  intro f hf
  obtain ⟨res, h1, h2⟩ := get_traced hr N url host hs hu hhost w w1 w2 a d ha hc hP stop hstop input ht f hf
  exact ⟨res, h1, h2.is⟩

theorem put_traced {P : σ → Prop} (hr : Reliable c P) (N : StreamConnector ω α (Duplex ρ σ))
    (url : Url) (host : Bytes) (hs : AsciiText url.scheme) (hu : PlainHttp url ∨ SecureHttp url) (hhost : url.host = some host)
    (body : τ) (bs : Bytes) (t' : List Ev) (hbody : Delivers c (trace body) bs t') (hend : Ended c t')
    (w w1 w2 : ω) (a : α) (d : Duplex ρ σ)
    (ha : N.toStreamAddr url w = (.ok a, w1)) (hc : N.connect a w1 = (.ok d, w2)) (hP : P d.wr)
    (stop : Option Err) (hstop : Final c stop) (input : Bytes) (ht : trace d.rd = input.map .byte ++ endEvents stop) :
    ∀ f, Received c stop input f → ∃ res, clientPut c N (some url) body w = (res, w2) ∧ TraceFate res f := by
  obtain ⟨s, h1, _⟩ := HttpUrl.tryFrom_ok hs hu hhost
  obtain ⟨b, h2, h3, h4, h5, h6⟩ := HttpRequestBuilder.new_ok c ⟨url, s, host⟩ .Put
  have : clientPut c N (some url) body w = sendRequest c N b url body w := by
    unfold clientPut HttpRequestBuilder.put
    dsimp only
    rw [h1, h2]
  rw [this]
  obtain ⟨d1, g1, g2⟩ := sendRequest_response hr N b url body w w1 w2 a d ha hc hP (.inl ⟨by rw [h3]; rfl, bs, t', hbody, hend⟩)
  rw [g2]
  exact fun f hf => ⟨_, rfl, received_fate hstop hf d1 (by rw [g1, ht])⟩

/-- The same of `client::put`, for any body that can be read to its end. -/
theorem C187_put {P : σ → Prop} (hr : Reliable c P) (N : StreamConnector ω α (Duplex ρ σ))
    (url : Url) (host : Bytes) (hs : AsciiText url.scheme) (hu : PlainHttp url ∨ SecureHttp url) (hhost : url.host = some host)
    (body : τ) (bs : Bytes) (t' : List Ev) (hbody : Delivers c (trace body) bs t') (hend : Ended c t')
    (w w1 w2 : ω) (a : α) (d : Duplex ρ σ)
    (ha : N.toStreamAddr url w = (.ok a, w1)) (hc : N.connect a w1 = (.ok d, w2)) (hP : P d.wr)
    (stop : Option Err) (hstop : Final c stop) (input : Bytes) (ht : trace d.rd = input.map .byte ++ endEvents stop) :
    ∀ f, Received c stop input f → ∃ res, clientPut c N (some url) body w = (res, w2) ∧ FateIs res f := by
  intro f hf
  obtain ⟨res, h1, h2⟩ := put_traced hr N url host hs hu hhost body bs t' hbody hend w w1 w2 a d ha hc hP stop hstop input ht f hf
  exact ⟨res, h1, h2.is⟩

end

section
variable [CaseMap] {c : Cfg}

/-- The rules say something of all bytes. -/
theorem C187_total (c : Cfg) (stop : Option Err) (hstop : Final c stop) (input : Bytes) : ∃ f, Received c stop input f := by
  by_cases hc : CutResponse c (input.map .byte ++ endEvents stop)
  · exact ⟨_, .cut hc⟩
  by_cases hq : ∃ code hist rest, Responds c stop input code hist rest
  case neg =>
    obtain ⟨e, he⟩ := (C188_total c (input.map .byte ++ endEvents stop)).2.2 ⟨hc, by
      rintro line hist t' major minor code ⟨h1, h2⟩
      obtain ⟨rest, hr⟩ : ∃ rest : Bytes, t' = rest.map .byte ++ endEvents stop := by
        obtain ⟨_, _, _, h3, _⟩ := h2
        exact delivers_left h3
      subst hr
      exact hq ⟨_, _, _, line, _, _, h1, h2⟩⟩
    exact ⟨_, .none he⟩
  obtain ⟨code, hist, rest, hq⟩ := hq
  by_cases h200 : code = 200
  · subst h200
    by_cases h1 : LastNamed "transfer-encoding" hist (utf8 "chunked")
    · obtain ⟨d, r, h⟩ := C185_total c stop rest
      exact ⟨_, .body hq (.told (.chunked h1 h))⟩
    · by_cases h2 : ∃ v, LastNamed "content-length" hist v
      · obtain ⟨v, h2⟩ := h2
        have hq' := hq
        obtain ⟨_, _, _, _, _, _, _, _, _, _, h6⟩ := hq'
        obtain ⟨n, hn, _⟩ := h6 v h2
        exact ⟨_, .body hq (.told (.limited h1 h2 hn))⟩
      · exact ⟨_, .body hq (.tilClose ⟨h1, fun v hv => h2 ⟨v, hv⟩⟩)⟩
  · obtain ⟨r, _, _, hst, _⟩ := responds_read hstop hq (stoppedConn input stop) (stoppedConn_trace input stop)
    exact ⟨_, .status hq h200 hst⟩

/-- And one thing only. -/
theorem C187_unique {stop : Option Err} (hstop : Final c stop) {input : Bytes} {f f' : Fate} (h : Received c stop input f)
    (h' : Received c stop input f') : f = f' := by
  have ht := stoppedConn_trace input stop
  have cut : CutResponse c (input.map .byte ++ endEvents stop) → ∀ code hist rest, ¬ Responds c stop input code hist rest := by
    intro hc code hist rest hq
    obtain ⟨r, s1, g1, _⟩ := responds_read hstop hq (stoppedConn input stop) ht
    have := (C11_response_panics_iff c (stoppedConn input stop)).2 (by rw [ht]; exact hc)
    rw [g1] at this; simp at this
  have same : ∀ {code code' hist hist' rest rest'}, Responds c stop input code hist rest → Responds c stop input code' hist' rest' → code = code' ∧
      ∀ d d' e e', ReplyBody c stop hist rest d e → ReplyBody c stop hist' rest' d' e' → d = d' ∧ e = e' := by
    intro code code' hist hist' rest rest' h h'
    obtain ⟨r, s1, g1, g2, g3⟩ := responds_read hstop h (stoppedConn input stop) ht
    obtain ⟨r', s1', g1', g2', g3'⟩ := responds_read hstop h' (stoppedConn input stop) ht
    rw [g1] at g1'
    simp only [Prod.mk.injEq, Res.ok.injEq] at g1'
    obtain ⟨rfl, rfl⟩ := g1'
    exact ⟨g2.1.symm.trans g2'.1, fun d d' e e' k k' => endEvents_split ((g3 _ _ k).symm.trans (g3' _ _ k'))⟩
  have none : ∀ {e f}, ResponseFault c (input.map .byte ++ endEvents stop) e → Received c stop input f → f = .fails e := by
    intro e f hf h
    obtain ⟨k1, k2⟩ := (C188_total c (input.map .byte ++ endEvents stop)).2.1 ⟨e, hf⟩
    cases h with
    | cut hc => exact absurd hc k1
    | none hf' => rw [(C188_unique c _ e _).2 hf hf']
    | status h1 => obtain ⟨line, _, _, h1, h2⟩ := h1; exact absurd ⟨h1, h2⟩ (k2 _ _ _ _ _ _)
    | body h1 => obtain ⟨line, _, _, h1, h2⟩ := h1; exact absurd ⟨h1, h2⟩ (k2 _ _ _ _ _ _)
  cases h with
  | none hf => exact (none hf h').symm
  | cut hc =>
    cases h' with
    | cut => rfl
    | none hf => exact none hf (.cut hc)
    | status h1 => exact absurd h1 (cut hc _ _ _)
    | body h1 => exact absurd h1 (cut hc _ _ _)
  | status h1 h2 h3 =>
    cases h' with
    | cut hc => exact absurd h1 (cut hc _ _ _)
    | none hf => exact none hf (.status h1 h2 h3)
    | status k1 k2 k3 =>
      obtain ⟨rfl, _⟩ := same h1 k1
      rw [statusFor_unique h3 k3]
    | body k1 k2 => exact absurd (same h1 k1).1 h2
  | body h1 h2 =>
    cases h' with
    | cut hc => exact absurd h1 (cut hc _ _ _)
    | none hf => exact none hf (.body h1 h2)
    | status k1 k2 k3 => exact absurd (same k1 h1).1 k2
    | body k1 k2 =>
      obtain ⟨rfl, rfl⟩ := (same h1 k1).2 _ _ _ _ h2 k2
      rfl

end

/-- A chunked answer. -/
theorem chunked_answer (c : Cfg) (stop : Option Err) {rest d : Bytes} {r : Option Err} (h : Dechunks c stop rest d r) :
    @Received asciiCase c stop (b!"HTTP/1.1 200 OK\r\nTransfer-Encoding: chunked\r\n\r\n" ++ rest) (.body d r) := by
  let _ := asciiCase
  refine .body (hist := [(b!"Transfer-Encoding", b!"chunked")]) (rest := rest) ⟨b!"HTTP/1.1 200 OK", 1, 1, ?_, ?_⟩
    (.told (.chunked ?_ h))
  · have hv : parseStatusLine b!"HTTP/1.1 200 OK" = .ok (⟨1, 1⟩, .OK) := by decide +kernel
    obtain ⟨code, hcode, hst⟩ := (statusLine_ok_iff (by decide +kernel) _ _).1 hv
    have hlt : code < 2 ^ 32 := by obtain ⟨_, _, _, _, _, _, _, _, _, _, _, h⟩ := hcode; exact h
    have := congrArg (fun st => st.toCode.toNat) hst
    rw [C01_code_lossless] at this
    have h2 : (UInt32.ofNat code).toNat = code := by simp [Nat.mod_eq_of_lt hlt]
    rw [h2] at this
    rw [← this] at hcode
    exact hcode
  · refine ⟨[b!"Transfer-Encoding: chunked"], rawLine_of (by decide) (by decide) (by decide), ?_, ?_, ?_, by decide, ?_⟩
    · intro l hl
      simp only [List.mem_cons, List.not_mem_nil, or_false] at hl
      subst hl; exact rawLine_of (by decide) (by decide) (by decide)
    · rw [List.map_append, List.append_assoc]; exact delivers_map c (blockBytes [b!"HTTP/1.1 200 OK", b!"Transfer-Encoding: chunked"]) (rest.map .byte ++ endEvents stop)
    · exact Folded.line (first := b!"Transfer-Encoding: chunked") (conts := []) (rest := []) (by simp) (by simp) .nil
    · rintro v ⟨pre, k, post, h1, h2, _⟩
      have hk : (k, v) ∈ [(b!"Transfer-Encoding", b!"chunked")] := by rw [h1]; simp
      simp only [List.mem_cons, List.not_mem_nil, or_false, Prod.mk.injEq] at hk
      rw [utf8_contentLength] at h2
      rcases hk with ⟨rfl, _⟩; exact absurd h2 (by decide)
  · refine ⟨[], b!"Transfer-Encoding", [], by rw [show utf8 "chunked" = b!"chunked" by decide +kernel]; rfl, ?_, by simp⟩
    dsimp only
    rw [show utf8 "transfer-encoding" = b!"transfer-encoding" by decide +kernel]; decide

/-- Witness for `C187_get`, `C187_put` and `C187_unique`: a chunked answer that is cut off, and what `client::get` and `client::put`
make of it. -/
example (c : Cfg) : let _ := asciiCase
    (∀ stop, Received c stop b!"HTTP/1.1 200 OK\r\nTransfer-Encoding: chunked\r\n\r\n2\r\nab\r\n5\r\nde" (.body b!"abde" (some (cutError c stop)))) ∧
    ∃ x, clientGet c (oneServer b!"HTTP/1.1 200 OK\r\nTransfer-Encoding: chunked\r\n\r\n2\r\nab\r\n5\r\nde") (some sampleUrl) () =
      (.ok x, ()) ∧ FailsAfter x b!"abde" (cutError c none) := by
  intro _
  have hhex : ∀ (t : Bytes) (n : Nat), parseHex64 t = .ok n → UnsignedText 16 t n := fun t n h => ((C07_hex_parse t n).1 h).1
  have hrec : ∀ stop, Received c stop b!"HTTP/1.1 200 OK\r\nTransfer-Encoding: chunked\r\n\r\n2\r\nab\r\n5\r\nde" (.body b!"abde" (some (cutError c stop))) := by
    intro stop
    exact chunked_answer c stop (.chunk (ch := ⟨b!"2", b!"ab", b!"\r\n"⟩) (rest := b!"5\r\nde") (d := b!"de") ⟨hhex _ _ (by decide +kernel), by decide, by decide, rfl⟩
        (.short (size := b!"5") (d := b!"de") (n := 5) (hhex _ _ (by decide +kernel)) (by decide) (by decide)))
  refine ⟨hrec, ?_⟩
  have hu : SecureHttp sampleUrl := by
    unfold SecureHttp
    rw [utf8_https]
    exact sameText_refl _
  have ha : AsciiText sampleUrl.scheme := by rw [← isAscii_iff]; decide
  have hplan : ∀ a ∈ [WPlan.accept 2], (∃ n, a = .accept (n + 1)) ∨ ∃ e, a = .fault e ∧ Retried c e := by
    intro a ha; simp only [List.mem_cons, List.not_mem_nil, or_false] at ha; exact .inl ⟨1, ha⟩
  obtain ⟨res, h1, x, h2, h3⟩ := (C187_get (sink_reliable c)
    (oneServer b!"HTTP/1.1 200 OK\r\nTransfer-Encoding: chunked\r\n\r\n2\r\nab\r\n5\r\nde") sampleUrl b!"h" ha (.inr hu) rfl () () () () _ rfl rfl
    hplan none (by intro e h; simp at h) _ rfl) _ (hrec none)
  subst h2
  exact ⟨x, h1, h3⟩

/-- Witness for `C187_total`: no response. -/
example (c : Cfg) : let _ := asciiCase
    Received c none b!"HTTP/1.1 abc\r\n\r\n" (.fails .parseInt) := by
  intro _
  have h : (HttpResponse.deserialize c (requestConn b!"HTTP/1.1 abc\r\n\r\n")).1 = .err .parseInt :=
    err_of (by rcases c with ⟨_ | _⟩ <;> decide +kernel)
  have := (C188_response c _ _).1 h
  rw [requestConn_trace] at this
  exact .none (by rw [endEvents, List.append_nil]; exact this)

end HttpIo
