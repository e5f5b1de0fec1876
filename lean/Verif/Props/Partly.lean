import Verif.Spec.Partly
import Verif.Props.Service
import Verif.Props.Disjoint

/-! C195: a server whose clients may go away before they have taken the answers. -/

namespace HttpIo
open Spec

/-- Where the bytes end or fail no more are delivered. -/
theorem delivers_stuck {c : Cfg} {t x : List Ev} {b : UInt8} {y : Bytes} (h : Delivers c t (b :: y) x) :
    ¬ Ended c t ∧ ∀ e t'', ¬ Fails c t e t'' := by
  generalize hbs : b :: y = bs at h
  induction h with
  | nil => simp at hbs
  | byte b' _ _ =>
    refine ⟨fun hn => ?_, fun e t'' ⟨_, pre, h1, h2⟩ => ?_⟩
    · obtain ⟨e, h, _⟩ := hn _ (List.mem_cons_self ..); simp at h
    · cases pre with
      | nil => simp at h1
      | cons ev pre =>
        simp only [List.cons_append, List.cons.injEq] at h1
        obtain ⟨e', h, _⟩ := h2 ev (by simp)
        rw [← h1.1] at h; simp at h
  | retry hr _ ih =>
    obtain ⟨i1, i2⟩ := ih hbs
    refine ⟨fun hn => i1 (fun ev hev => hn ev (List.mem_cons_of_mem _ hev)), fun e t'' ⟨h0, pre, h1, h2⟩ => ?_⟩
    cases pre with
    | nil =>
      simp only [List.nil_append, List.cons.injEq, Ev.fault.injEq] at h1
      rw [← h1.1] at h0; exact h0 hr
    | cons ev pre =>
      simp only [List.cons_append, List.cons.injEq] at h1
      exact i2 e t'' ⟨h0, pre, h1.2, fun ev hev => h2 ev (by simp [hev])⟩

/-- What is delivered up to there begins with all else that is delivered. -/
theorem delivers_most {c : Cfg} {t t1 t2 : List Ev} {a b : Bytes} (ha : Delivers c t a t1) (hs : Ended c t1 ∨ ∃ e t'', Fails c t1 e t'')
    (hb : Delivers c t b t2) : b <+: a := by
  rcases delivers_comparable ha hb with ⟨x, rfl⟩ | h
  · have := ha.unique hb
    cases x with
    | nil => rw [List.append_nil]; exact List.prefix_refl _
    | cons y x =>
      obtain ⟨k1, k2⟩ := delivers_stuck this
      rcases hs with hs | ⟨e, t'', hs⟩
      · exact absurd hs k1
      · exact absurd hs (k2 _ _)
  · exact h

section
variable {c : Cfg} {σ ρ : Type} [LawfulWriter σ] [LawfulReader ρ] [ZeroReader ρ]

/-- The response on a connection that need not take it. -/
theorem respond_partly (r : ServerResponse c ρ) (s : σ) {res : Res Unit} {out : Bytes} (h : SentReply r res out) :
    ∃ x b d p, respond c r s = (x, b, d) ∧ sent d = sent s ++ p ∧ p <+: out ∧ (x = .ok () → res = .ok () ∧ p = out) := by
  obtain ⟨bs, t', hd, hs, hout, hres, hv1, hv2⟩ : ∃ bs t', Delivers c (trace r.body) bs t' ∧ (Ended c t' ∨ ∃ e t'', Fails c t' e t'') ∧
      out = versionedHead r.version.major r.version.minor r.status.display r.headers.entries ++ bs ∧
      (Ended c t' → res = .ok ()) ∧ r.version.major < 10 ∧ r.version.minor < 10 := by
    cases h with
    | whole h1 h2 h3 h4 => exact ⟨_, _, h3, .inl h4, rfl, fun _ => rfl, h1, h2⟩
    | broken h1 h2 h3 h4 =>
      refine ⟨_, _, h3, .inr ⟨_, _, h4⟩, rfl, fun he => ?_, h1, h2⟩
      obtain ⟨k1, pre, k2, _⟩ := h4
      rw [k2] at he
      obtain ⟨e', k3, k4⟩ := he _ (List.mem_append_right _ (List.mem_cons_self ..))
      simp only [Ev.fault.injEq] at k3
      rw [← k3] at k4
      exact absurd k4 k1
  unfold respond HttpResponse.serialize
  rcases hw : writePieces c s r.headPieces with ⟨_ | _, s1⟩
  · obtain ⟨_, p, g1, g2, _⟩ := writePieces_sent hw
    rw [response_versioned r hv1 hv2] at g1
    exact ⟨_, _, s1, p, rfl, g2, by rw [hout]; exact g1.trans (List.prefix_append _ _), by simp⟩
  · obtain ⟨_, p, _, g2, g3⟩ := writePieces_sent hw
    have g3 := g3 rfl
    rw [response_versioned r hv1 hv2] at g3
    subst g3
    dsimp only
    rcases hc : copy c r.body s1 0 with ⟨_ | _, b, s2⟩
    · obtain ⟨p, bs', t2, f1, f2, f3⟩ := C33_copy_err c _ _ _ _ _ _ hc
      refine ⟨_, b, s2, _, rfl, by rw [f3, g2, List.append_assoc], ?_, by simp⟩
      rw [hout]
      exact (List.prefix_append_right_inj _).2 (f2.trans (delivers_most hd hs f1))
    · obtain ⟨bs', t2, f1, f2, f3, _⟩ := C33_copy_ok c _ _ _ _ _ _ hc
      have e1 : bs' <+: bs := delivers_most hd hs f1
      have e2 : bs <+: bs' := delivers_most f1 (.inl f2) hd
      have e3 : bs' = bs := e1.eq_of_length_le e2.length_le
      subst e3
      refine ⟨_, b, s2, _, rfl, by rw [f3, g2, List.append_assoc], by rw [hout]; exact List.prefix_refl _, fun _ => ⟨?_, hout.symm⟩⟩
      exact hres (by rw [hd.end_unique f1]; exact f2)

end

section
variable [CaseMap] {c : Cfg} {η σ ρ ε κ : Type} [LawfulReader σ] [ZeroReader σ] [LawfulWriter σ] [LawfulReader ρ] [ZeroReader ρ]

/-- Sending what the server has made of a connection. -/
theorem inner_partly {h : Handler c η σ ρ ε} {errText : Err → Bytes} {s s1 : σ} {self st : η} {x : Reply (ServerResponse c ρ) (ServerResponse c ρ)}
    (hi : h.serveOneInner errText s self = (x, s1, st)) (hs : sent s1 = sent s) (r : ServerResponse c ρ) (hx : x = .ok r ∨ x = .err r)
    {res : Res Unit} {out : Bytes} (hr : SentReply r res out) :
    ∃ res' d self' p, h.serveOne errText (.ok s) self = (res', some d, self') ∧ sent d = sent s ++ p ∧ p <+: out ∧
      (res' = .ok () → res = .ok () ∧ p = out) ∧ res' ≠ .panic ∧ ((∃ b, self' = h.release b st ∧ x = .ok r) ∨ self' = st ∧ x = .err r) := by
  obtain ⟨y, b, d, p, k1, k2, k3, k4⟩ := respond_partly r s1 hr
  unfold Handler.serveOne
  dsimp only
  rw [hi]
  rcases hx with rfl | rfl
  · dsimp only
    rw [k1]
    cases y with
    | ok _ => exact ⟨_, d, _, p, rfl, by rw [k2, hs], k3, fun _ => k4 rfl, by simp, .inl ⟨b, rfl, rfl⟩⟩
    | error e => exact ⟨_, d, _, p, rfl, by rw [k2, hs], k3, by simp, by simp, .inl ⟨b, rfl, rfl⟩⟩
  · dsimp only
    rw [k1]
    cases y with
    | ok _ => exact ⟨_, d, _, p, rfl, by rw [k2, hs], k3, fun _ => k4 rfl, by simp, .inr ⟨rfl, rfl⟩⟩
    | error e => exact ⟨_, d, _, p, rfl, by rw [k2, hs], k3, by simp, by simp, .inr ⟨rfl, rfl⟩⟩

theorem sentReply_not_panic {r : ServerResponse c ρ} {res : Res Unit} {out : Bytes} (h : SentReply r res out) : res ≠ .panic := by
  cases h <;> simp

/-- The same for what the handler has replied. -/
theorem partly_replied {h : Handler c η σ ρ ε} {stands : η → κ → Prop} {errText : Err → Bytes} {s s1 : σ} {self : η}
    {x : Reply ε (ServerResponse c ρ) × HttpBody c (BufReader c σ) × η} {y : Res Unit × Bytes × κ}
    (hi : h.serveOneInner errText s self = (x.1.mapErr h.into, s1, x.2.2)) (hs : sent (h.serveOneInner errText s self).2.1 = sent s)
    (hr : RepliesAs h stands x y) :
    ∃ res d self' p, h.serveOne errText (.ok s) self = (res, some d, self') ∧ sent d = sent s ++ p ∧ p <+: y.2.1 ∧
      (res = .ok () → y.1 = .ok () ∧ p = y.2.1) ∧ (res = .panic ↔ y.1 = .panic) ∧ stands self' y.2.2 := by
  obtain ⟨reply, body, st⟩ := x
  obtain ⟨res, out, k'⟩ := y
  obtain ⟨h1, h2⟩ := hr
  rw [hi] at hs
  dsimp only at h1 h2 hs hi ⊢
  cases h1 with
  | answer hr =>
    obtain ⟨res', d, self', p, g1, g2, g3, g4, g5, g6⟩ := inner_partly hi hs _ (.inl rfl) hr
    refine ⟨res', d, self', p, g1, g2, g3, g4, ⟨fun hx => absurd hx g5, fun hx => absurd hx (sentReply_not_panic hr)⟩, ?_⟩
    rcases g6 with ⟨b, rfl, _⟩ | ⟨_, hx⟩
    · exact h2 _ (.answer b)
    · simp [Reply.mapErr] at hx
  | error hr =>
    obtain ⟨res', d, self', p, g1, g2, g3, g4, g5, g6⟩ := inner_partly hi hs _ (.inr rfl) hr
    refine ⟨res', d, self', p, g1, g2, g3, g4, ⟨fun hx => absurd hx g5, fun hx => absurd hx (sentReply_not_panic hr)⟩, ?_⟩
    rcases g6 with ⟨b, _, hx⟩ | ⟨rfl, _⟩
    · simp [Reply.mapErr] at hx
    · exact h2 _ .error
  | panic =>
    refine ⟨.panic, s1, st, [], ?_, by rw [List.append_nil, hs], List.nil_prefix, by simp, by simp, h2 _ .panic⟩
    unfold Handler.serveOne
    dsimp only
    rw [hi]
    rfl

/-- One connection that need not take what is sent. -/
theorem servesOne_partly (hra : ReadsApart σ) {h : Handler c η σ ρ ε} (ho : OnlyReads h) {stands : η → κ → Prop} {S : Service κ}
    (hp : Provides h stands S) (errText : Err → Bytes) (s : σ) (self : η) (k : κ) (hk : stands self k) {stop : Option Err} (hf : Final c stop)
    (hlr : stop ≠ some .lengthRequired) {input : Bytes} (ht : trace s = input.map .byte ++ endEvents stop)
    {y : Res Unit × Bytes × κ} (hy : ServesOne c errText S k stop input y) :
    ∃ res d self' p, h.serveOne errText (.ok s) self = (res, some d, self') ∧ sent d = sent s ++ p ∧ p <+: y.2.1 ∧
      (res = .ok () → y.1 = .ok () ∧ p = y.2.1) ∧ (res = .panic ↔ y.1 = .panic) ∧ stands self' y.2.2 := by
  have hsent := inner_sent hra h ho errText s self
  cases hy with
  | panics hq =>
    obtain ⟨d, h1, h2⟩ := C192_panics hra h ho errText s self stop input ht hq
    exact ⟨_, d, self, [], h1, by rw [h2, List.append_nil], List.nil_prefix, by simp, by simp, hk⟩
  | @faulty e hq =>
    cases hq with
    | malformed hx =>
      have hpe := (C188_request c (BufReader.new c s) e).2 (by rw [BufReader.trace_new, ht]; exact hx)
      have hne : e ≠ .lengthRequired := by
        rcases request_faults hpe with h1 | h1
        · rw [BufReader.trace_new, ht] at h1
          rintro rfl
          cases stop <;> simp_all [endEvents]
        · rcases h1 with h1 | h1 | h1 | h1 <;> rw [h1] <;> simp
      rcases hp' : HttpRequest.deserialize c (BufReader.new c s) with ⟨r, s1⟩
      rw [hp'] at hpe
      dsimp only at hpe
      subst hpe
      have hi := serveOneInner_err h errText self hp'
      have hof : ServerResponse.ofError c (ρ := ρ) errText e = ServerResponse.fromString c .InternalServerError (errText e) := by
        unfold ServerResponse.ofError
        cases e <;> first | rfl | exact absurd rfl hne
      rw [hof] at hi
      rw [hi] at hsent
      have hr := sentReply_text (c := c) (ρ := ρ) .InternalServerError (errText e)
      rw [show HttpStatus.display .InternalServerError = utf8 "500 Internal Server Error" by decide +kernel] at hr
      obtain ⟨res', d, self', p, g1, g2, g3, g4, g5, g6⟩ := inner_partly hi hsent _ (.inr rfl) hr
      refine ⟨res', d, self', p, g1, g2, g3, g4, by simp [g5], ?_⟩
      rcases g6 with ⟨_, _, hx⟩ | ⟨rfl, _⟩
      · simp at hx
      · exact hk
  | noLength hq =>
    cases hq with
    | noLength hq hm hn =>
      obtain ⟨r, s1, f1, f2, f3, f4, f5⟩ := requests_read hf hq s ht
      have hi := serveOneInner_refused h errText self f1 (fun ha => ha (by rw [f2]; exact hm) (f4.1 hn))
      rw [hi] at hsent
      have hr := sentReply_text (c := c) (ρ := ρ) .LengthRequired b!"length required"
      rw [show HttpStatus.display .LengthRequired = utf8 "411 Length Required" by decide +kernel] at hr
      obtain ⟨res', d, self', p, g1, g2, g3, g4, g5, g6⟩ := inner_partly hi hsent _ (.inr rfl) hr
      rw [show b!"length required" = utf8 "length required" by decide +kernel] at g3 g4
      refine ⟨res', d, self', p, g1, g2, g3, g4, by simp [g5], ?_⟩
      rcases g6 with ⟨_, _, hx⟩ | ⟨rfl, _⟩
      · simp at hx
      · exact hk
  | plain hq =>
    cases hq with
    | plain hq hm =>
      obtain ⟨r, s1, f1, f2, f3, f4, f5⟩ := requests_read hf hq s ht
      subst f2; subst f3
      have hi := serveOneInner_handled h errText self f1 (fun hx => absurd hx hm)
      exact partly_replied hi hsent ((hp self k hk _ _ r.body).1 hm)
  | upload hq =>
    cases hq with
    | upload hq hm hc =>
      obtain ⟨x, s1, f1, f2, f3, f4, f5⟩ := requests_read hf hq s ht
      subst f2; subst f3
      have hi := serveOneInner_handled h errText self f1 (fun _ hx => by
        obtain ⟨k1, k2⟩ := f4.2 hx
        cases hc with
        | chunked g => exact k1 g
        | limited _ g => exact k2 _ g)
      exact partly_replied hi hsent ((hp self k hk _ _ x.body).2 hm _ _ (by
        intro e he; subst he; exact replyBody_final hf (.told hc)) (f5 _ _ hc))

/-! ### C195 -/

/-- The server's whole life, whatever its clients take of the answers: the turns come to what they were to come to, up to what was not
taken, and the state is the same as if all had been taken. -/
theorem C195_forever (hra : ReadsApart σ) (h : Handler c η σ ρ ε) (ho : OnlyReads h) (stands : η → κ → Prop) (S : Service κ)
    (hp : Provides h stands S) (errText : Err → Bytes) (accepts : List (Except Err (σ × Bytes × Option Err)))
    (hconn : ∀ s input stop, .ok (s, input, stop) ∈ accepts → sent s = [] ∧ Final c stop ∧ stop ≠ some .lengthRequired ∧
      trace s = input.map .byte ++ endEvents stop) (self : η) (k : κ) (hk : stands self k)
    (outs : List (Res Unit × Option Bytes)) (k' : κ) (hall : ServesAll c errText S k (accepts.map (·.map (·.2))) outs k') :
    AllCameTo outs ((h.serveForever errText (accepts.map fun | .ok x => .ok x.1 | .error e => .err e) self).1.map
        fun x => (x.1, x.2.map sent)) ∧
      stands (h.serveForever errText (accepts.map fun | .ok x => .ok x.1 | .error e => .err e) self).2 k' := by
  induction accepts generalizing self k outs with
  | nil => cases hall; exact ⟨.nil, hk⟩
  | cons x accepts ih =>
    have ih := ih fun s i st hy => hconn s i st (by simp [hy])
    rw [List.map_cons]
    cases x with
    | error e =>
      rw [List.map_cons] at hall
      cases hall with
      | refused hall =>
        obtain ⟨h1, h2⟩ := ih self k hk _ hall
        unfold Handler.serveForever Handler.serveOne
        dsimp only
        exact ⟨.cons .none h1, h2⟩
    | ok x =>
      obtain ⟨s, input, stop⟩ := x
      obtain ⟨h0, hf, hlr, ht⟩ := hconn s input stop (by simp)
      rw [List.map_cons] at hall
      unfold Handler.serveForever
      dsimp only
      cases hall with
      | panic h1 =>
        obtain ⟨res, d, self', p, g1, g2, g3, g4, g5, g6⟩ := servesOne_partly hra ho hp errText s self k hk hf hlr ht h1
        have : res = .panic := g5.2 rfl
        subst this
        rw [g1]
        rw [h0, List.nil_append] at g2
        refine ⟨.cons ?_ .nil, g6⟩
        dsimp only [Option.map]
        rw [g2]
        exact .taken g3 g4 g5
      | @next _ k1 _ _ _ _ res out outs h1 h2 h3 =>
        obtain ⟨res', d, self', p, g1, g2, g3, g4, g5, g6⟩ := servesOne_partly hra ho hp errText s self k hk hf hlr ht h1
        obtain ⟨e1, e2⟩ := ih self' _ g6 _ h3
        rw [g1]
        rw [h0, List.nil_append] at g2
        have hc : CameTo (res, some out) (res', some (sent d)) := by rw [g2]; exact .taken g3 g4 g5
        cases res' with
        | panic => exact absurd (g5.1 rfl) h2
        | ok u => exact ⟨.cons hc e1, e2⟩
        | err e => exact ⟨.cons hc e1, e2⟩

end

/-- A connection that takes five bytes and then is gone, and one that takes all: the first client's data is stored although it never got
its answer, and the second gets it. -/
example (c : Cfg) : let _ := asciiCase
    let first := b!"PUT /a HTTP/1.1\r\nContent-Length: 4\r\n\r\nabcd"
    let second := b!"GET /b HTTP/1.1\r\n\r\n"
    let gone := { requestConn first with wr := { (requestConn first).wr with plan := [.accept 5, .fault (.io (.other 32))] } }
    ∃ outs k', ServesAll c (fun _ => []) storeService [] [.ok (first, none), .ok (second, none)] outs k' ∧
      ((storeHandler c).serveForever (fun _ => []) [.ok gone, .ok (requestConn second)] []).1.map (fun x => (x.1, x.2.map sent)) =
        [(.err (c.toIo (.io (.other 32))), some b!"HTTP/"), (.ok (), some b!"HTTP/1.1 200 OK\r\n\r\nabcd")] ∧
      AllCameTo outs [(.err (c.toIo (.io (.other 32))), some b!"HTTP/"), (.ok (), some b!"HTTP/1.1 200 OK\r\n\r\nabcd")] ∧
      k' = b!"abcd" := by
  intro _ first second gone
  have hfin : Final c none := by intro e h; simp at h
  obtain ⟨outs0, k0, h0⟩ := C193_total (c := c) (fun _ => []) storeService [] [.ok (first, none), .ok (second, none)]
  have hf := C195_forever duplex_readsApart (storeHandler c) (storeHandler_reads c) Eq storeService (storeHandler_provides c) (fun _ => [])
    [.ok (gone, first, none), .ok (requestConn second, second, none)]
    (by
      intro s input stop hx
      simp only [List.mem_cons, List.not_mem_nil, or_false, Except.ok.injEq, Prod.mk.injEq] at hx
      rcases hx with ⟨rfl, rfl, rfl⟩ | ⟨rfl, rfl, rfl⟩
      · refine ⟨rfl, hfin, by simp, ?_⟩
        rw [show trace gone = trace (requestConn first) from rfl, requestConn_trace, endEvents, List.append_nil]
      · exact ⟨rfl, hfin, by simp, by rw [requestConn_trace, endEvents, List.append_nil]⟩)
    [] [] rfl outs0 k0 h0
  have e1 : ((storeHandler c).serveForever (fun _ => []) [.ok gone, .ok (requestConn second)] []).1.map (fun x => (x.1, x.2.map sent)) =
      [(.err (c.toIo (.io (.other 32))), some b!"HTTP/"), (.ok (), some b!"HTTP/1.1 200 OK\r\n\r\nabcd")] := by
    rcases c with ⟨_ | _⟩ <;> decide +kernel
  have e2 : ((storeHandler c).serveForever (fun _ => []) [.ok gone, .ok (requestConn second)] []).2 = b!"abcd" := by
    rcases c with ⟨_ | _⟩ <;> decide +kernel
  have hf1 := hf.1
  have hf2 := hf.2
  simp only [List.map_cons, List.map_nil] at hf1 hf2
  rw [e1] at hf1
  rw [e2] at hf2
  exact ⟨outs0, k0, h0, e1, hf1, hf2.symm⟩

end HttpIo
