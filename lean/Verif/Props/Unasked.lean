import Verif.Props.Abandon

/-! C174: responses that were sent before the request. -/

namespace HttpIo
open Spec

section
variable [CaseMap] {c : Cfg} {ω α σ : Type} [DecidableEq α] [PeerSocket σ] [ZeroReader σ]

/-- Full statement: a request obtains the response that the peer sends for it, whatever the peer had sent before. What holds is
this. If `left` has been sent before the request, on a connection that is new or pooled: with nothing sent before, the
request obtains its own response. If what was sent does not begin with an `H`, it obtains none. If it begins with a response, it
obtains that one, and neither the request nor its own response matters. -/
theorem C174_early_partial (N : StreamConnector ω α σ) (P : σ → Prop) (hr : Reliable c P) (idle : List Ev)
    (hP : ∀ s n, P s → idle <:+ trace (read s n).2 → P (read s n).2) (hidle : ∀ b t, idle ≠ .byte b :: t) (a : α)
    (cl : HttpClient α σ) (s : σ)
    (hs : poolGet a cl.streams = some s ∨ poolGet a cl.streams = none ∧ ∀ w, (N.connect a w).1 = .ok s)
    (hPs : P s) (hfl : wire s = sent s) (left : Bytes) (hpend : trace s = left.map .byte ++ idle)
    (q : Ask) (ans : Answer) (hq : q.Proper) (ha : ans.Proper) (haddr : ∀ w, (N.toStreamAddr q.url w).1 = .ok a)
    (hp : Positive q.sizes) (hlen : ans.body.length ≤ q.sizes.length)
    (hserves : Serves (Answer.Sent c) (PeerSocket.peer s) idle (wire s) (PeerSocket.taken s ++ left.map .byte) [(q, ans)]) (w : ω) :
    ∃ out, (exchange N (q.exchange (c := c)) cl w).1 = .ok out ∧
      (left = [] → ∃ st rs, out = .got st ans.headers rs ∧ st.toCode = ans.status.toCode ∧ ReadAll rs ans.body) ∧
      (∀ x xs, left = x :: xs → x ≠ 72 → ∀ st h rs, out ≠ .got st h rs) ∧
      ∀ f : Answer, f.Proper → f.body.length ≤ q.sizes.length →
        ∀ junk, left = responseHead f.status.display f.headers.entries ++ f.body ++ junk →
        ∃ st rs, out = .got st f.headers rs ∧ st.toCode = f.status.toCode ∧ ReadAll rs f.body := by
  have hrest : Rests P (PeerSocket.peer s) idle (left.map .byte) (PeerSocket.taken s ++ left.map .byte) (wire s) s :=
    ⟨hPs, hfl, rfl, rfl, hpend, rfl⟩
  obtain ⟨b, o, _, _, _, _, f1, f2, _⟩ := request_heard hr s hPs hfl q hq rfl hserves
  rcases hrt : roundTrip q.writes q.sizes o with ⟨out, sx⟩
  obtain ⟨cl', w', y1, _⟩ := exchange_step N q cl w a haddr hs f1 f2 hrt
  have same : ∀ {b' o'}, HttpRequestBuilder.new c (HttpUrl.tryFrom q.url) (if q.put then .Put else .Get) = .ok b' →
      b'.send s = .ok o' → o' = o := by
    intro b' o' hb ho
    rw [f1, Res.ok.injEq] at hb
    subst hb
    rw [f2, Except.ok.injEq] at ho
    exact ho.symm
  refine ⟨out, by rw [y1], ?_, ?_, ?_⟩
  · rintro rfl
    obtain ⟨b3, o3, s3, st2, rs2, _, _, k1, k2, k3, k4, k5, _⟩ :=
      roundTrip_answered hr idle hP hidle hrest q hq _ ans ha (fun _ h => h) hp hlen _ hserves
    rw [same k1 k2, hrt, Prod.mk.injEq] at k3
    rw [k3.1]
    exact ⟨st2, rs2, rfl, by rw [k4, C01_code_lossless], k5⟩
  · rintro x xs rfl hx
    obtain ⟨b3, o3, s3, out, k1, k2, k3, k4⟩ := roundTrip_garbage hr idle hrest hx q hq _ _ hserves
    rw [same k1 k2, hrt, Prod.mk.injEq] at k3
    rw [k3.1]
    exact k4
  · rintro f hf hlen junk rfl
    obtain ⟨b3, o3, s3, st2, rs2, k1, k2, k3, k4, k5⟩ := roundTrip_forged hr idle f hf junk hrest q hq hp hlen _ _ hserves
    rw [same k1 k2, hrt, Prod.mk.injEq] at k3
    rw [k3.1]
    exact ⟨st2, rs2, rfl, by rw [k4, C01_code_lossless], k5⟩

/-- Exactly what comes of a request if anything (`left`) had been sent before it: what is read is `left` and the answer put
together, as if the peer had answered with both. Nothing tells the one from the other, whatever they are. -/
theorem C174_joined_partial {P : σ → Prop} (hr : Reliable c P) (s : σ) (hPs : P s) (hfl : wire s = sent s) (q : Ask) (hq : q.Proper)
    {κ : Type} {said : κ → List Ev → Prop} (idle left : List Ev) (a : κ) (rest : List (Ask × κ))
    (hserves : Serves said (PeerSocket.peer s) idle (wire s) (PeerSocket.taken s ++ left) ((q, a) :: rest)) :
    ∃ b o o' evs, HttpRequestBuilder.new c (HttpUrl.tryFrom q.url) (if q.put then .Put else .Get) = .ok b ∧
      b.send s = .ok o ∧ perform o q.writes = (true, o') ∧ said a evs ∧
      ∀ {τ : Type} [LawfulReader τ] [ZeroReader τ] (u : τ), trace u = left ++ evs ++ idle →
        SameOutcome (fun r r' => r.version = r'.version ∧ r.status = r'.status ∧ r.headers = r'.headers ∧ SameBody r.body r'.body)
          o'.finish.1 (HttpResponse.deserialize c u).1 := by
  obtain ⟨b, o, o', s1, bytes, evs, h1, h2, h3, h4, _, _, _, _, _, g2, htr, _⟩ := request_heard hr s hPs hfl q hq rfl hserves
  refine ⟨b, o, o', evs, h1, h2, h3, g2, ?_⟩
  intro τ _ _ u hu
  have hf : o'.finish = HttpResponse.deserialize c s1 := by
    unfold OutgoingRequest.finish
    rw [h4]
  rw [hf]
  exact (C09_response c s1 u (by rw [htr, hu])).1

/-- A request on a connection on which a response is waiting (without `std`): the caller gets that one, and its own is waiting
then. -/
theorem roundTrip_late (hstd : c.std = false) {P : σ → Prop} (hr : Reliable c P) (idle : List Ev)
    (hP : ∀ s n, P s → idle <:+ trace (read s n).2 → P (read s n).2)
    {κ : Type} {said : κ → List Ev → Prop} {pr : Bytes → List Ev} {left got : List Ev} {w : Bytes} {s : σ}
    (hs : Rests P pr idle left got w s) (q : Ask) (hq : q.Proper) (k : κ) (f : Answer) (hf : f.Proper) (hleft : f.Sent c left)
    (hsizes : Positive q.sizes) (hlen : f.body.length ≤ q.sizes.length) (rest : List (Ask × κ))
    (hserves : Serves said pr idle w got ((q, k) :: rest)) :
    ∃ b o s' st rs evs got' w', HttpRequestBuilder.new c (HttpUrl.tryFrom q.url) (if q.put then .Put else .Get) = .ok b ∧
      b.send s = .ok o ∧ roundTrip q.writes q.sizes o = (.got st f.headers rs, s') ∧
      st = HttpStatus.fromCode f.status.toCode ∧ ReadAll rs f.body ∧ said k evs ∧
      Rests P pr idle evs got' w' s' ∧ Serves said pr idle w' got' rest := by
  obtain ⟨rfl, rfl⟩ : pr = PeerSocket.peer s ∧ w = wire s := ⟨hs.peer.symm, hs.wire.symm⟩
  obtain ⟨b, o, o', s1, bytes, evs, h1, h2, h3, h4, h6, h7, h8, h9, g1, g2, htr, g4⟩ :=
    request_heard hr s hs.fine hs.flushed q hq hs.taken hserves
  obtain ⟨hd, l2, g3⟩ := hleft
  obtain ⟨pre, e1, e2⟩ := g3.suffix
  rw [List.append_nil] at e1
  have hdel : Delivers c (trace s1) (responseHead f.status.display f.headers.entries) (f.body.map .byte ++ (evs ++ idle)) := by
    rw [htr, l2, e1, List.append_assoc, List.append_assoc]; exact e2 _
  obtain ⟨r, s2, f1, f2, _, f3, f4, f5, f6⟩ := response_delivered c s1 f.status f.headers _ hf.sendable
    (FramedBy.lengthOk hf.sendable.1 hf.framed) hdel
  have hfr := framedBy_unique hf.sendable.1 f4 hf.framed
  have hbody : r.body = .Limited ⟨BufReader.new c s2, f.body.length⟩ := by
    cases hb : r.body with
    | Chunked i => rw [hb] at hfr; simp [framing] at hfr
    | ReadTilClose i => rw [hb] at hfr; simp [framing] at hfr
    | Limited t =>
      rw [hb] at hfr f5
      obtain ⟨i, l⟩ := t
      simp only [framing, Framing.limited.injEq] at hfr
      simp only [HttpBody.under, Option.some.injEq] at f5
      rw [hfr, f5]
  obtain ⟨k1, s3, k2, k3⟩ := limited_read (c := c) (BufReader.new c s2) f.body (evs ++ idle) (by rw [BufReader.trace_new, f6])
    q.sizes hsizes hlen
  rw [← hbody] at k1 k2
  rw [BufReader.trace_eq, if_neg (by simp [hstd])] at k3
  have hkept := body_kept hP h8 h7 f1 k2
  rw [h9] at hkept
  exact ⟨b, o, s3.inner, r.status, _, evs, got ++ evs, _, h1, h2, by rw [roundTrip_got h3 h4 f1 k2, f3], f2, k1, g2,
    rests_of_read hkept k3 g1, g4⟩

/-- The answers shifted by one: the first request obtains `f`, each other one the answer to the request before it. -/
def Spec.shifted (f : Answer) : List (Ask × Answer) → List (Ask × Answer)
  | [] => []
  | (q, a) :: rest => (q, f) :: shifted a rest

/-- False for every later request too, without `std`: if a response is waiting on a connection before the first of any number of
requests, the first obtains that one and each other the answer to the request before it, although the peer answers every
request as it should and the caller reads every response to its end. -/
theorem C174_shift_false (hstd : c.std = false) (N : StreamConnector ω α σ) (P : σ → Prop) (hr : Reliable c P) (idle : List Ev)
    (hP : ∀ s n, P s → idle <:+ trace (read s n).2 → P (read s n).2) (a : α) (list : List (Ask × Answer))
    (haddr : ∀ x ∈ list, ∀ w, (N.toStreamAddr x.1.url w).1 = .ok a) (hq : ∀ x ∈ list, x.1.Proper ∧ x.2.Proper ∧ Positive x.1.sizes)
    (f : Answer) (hf : f.Proper) (hlen : ∀ x ∈ shifted f list, x.2.body.length ≤ x.1.sizes.length)
    (cl : HttpClient α σ) (s : σ)
    (hs : poolGet a cl.streams = some s ∨ poolGet a cl.streams = none ∧ ∀ w, (N.connect a w).1 = .ok s)
    (hPs : P s) (hfl : wire s = sent s) (left : List Ev) (hleft : f.Sent c left) (hpend : trace s = left ++ idle)
    (hserves : Serves (Answer.Sent c) (PeerSocket.peer s) idle (wire s) (PeerSocket.taken s ++ left) list) (w : ω) :
    (history (c := c) N (list.map fun x => x.1.exchange) cl w).1.length = list.length ∧
    ∀ (k : Nat) q ans, (shifted f list)[k]? = some (q, ans) →
      ∃ st rs, (history (c := c) N (list.map fun x => x.1.exchange) cl w).1[k]? = some (.ok (.got st ans.headers rs)) ∧
        st.toCode = ans.status.toCode ∧ ReadAll rs ans.body := by
  induction list generalizing f cl s left w with
  | nil => exact ⟨rfl, by intro k q ans h; simp [shifted] at h⟩
  | cons x rest ih =>
    obtain ⟨q, ans⟩ := x
    have hrest : Rests P (PeerSocket.peer s) idle left (PeerSocket.taken s ++ left) (wire s) s :=
      ⟨hPs, hfl, rfl, rfl, hpend, rfl⟩
    obtain ⟨hq1, hq2, hq3⟩ := hq _ (List.mem_cons_self)
    obtain ⟨b, o, s', st, rs, evs, got', w', h1, h2, h3, h4, h5, h6, h7, h8⟩ :=
      roundTrip_late hstd hr idle hP hrest q hq1 ans f hf hleft hq3 (hlen (q, f) (by simp [shifted])) rest hserves
    obtain ⟨cl', w'', y1, y2⟩ := exchange_step N q cl w a (haddr _ List.mem_cons_self) hs h1 h2 h3
    obtain ⟨i1, i2⟩ := ih (fun x hx => haddr x (by simp [hx])) (fun x hx => hq x (by simp [hx])) ans hq2
      (fun x hx => hlen x (by simp [shifted, hx])) cl' s' (.inl y2) h7.fine h7.flushed evs h6 h7.pending
      (by rw [h7.peer, h7.wire, h7.taken]; exact h8) w''
    have hh : (history (c := c) N (((q, ans) :: rest).map fun x => x.1.exchange) cl w).1 =
        .ok (.got st f.headers rs) :: (history (c := c) N (rest.map fun x => x.1.exchange) cl' w'').1 := by
      simp only [List.map_cons, history]
      rw [y1]
    rw [hh]
    refine ⟨by simp [i1], ?_⟩
    intro k q' ans' hk
    cases k with
    | zero =>
      simp only [shifted, List.getElem?_cons_zero, Option.some.injEq, Prod.mk.injEq] at hk
      obtain ⟨rfl, rfl⟩ := hk
      exact ⟨st, rs, rfl, by rw [h4, C01_code_lossless], h5⟩
    | succ k =>
      simp only [shifted, List.getElem?_cons_succ] at hk
      obtain ⟨st', rs', j1, j2⟩ := i2 k q' ans' hk
      exact ⟨st', rs', by rw [List.getElem?_cons_succ]; exact j1, j2⟩

end

/-- A peer that says something at once, and answers when it has received 62 bytes. -/
def forward (early answer : Bytes) (idle : Option Err) (seg : Nat) : Talker where
  reply w := early ++ if w.length < 62 then [] else answer
  mono w x := by
    rw [List.length_append]
    refine (List.prefix_append_right_inj _).2 ?_
    by_cases h : w.length < 62
    · rw [if_pos h]; exact List.nil_prefix
    · rw [if_neg h, if_neg (by omega)]; exact List.prefix_refl _
  idle := idle
  seg := seg
  sink := ⟨[], 0, [.accept 3, .accept 1]⟩
  got := []
  got_le := List.nil_prefix
  dead := false
  dead_got := by simp

/-- What servers say on a connection that was idle for too long. -/
def tooLate : Answer := ⟨.RequestTimeout, ⟨[(b!"content-length", b!"0")]⟩, []⟩

/-- False: the server has said on an idle connection that it has waited too long. The next request is answered with `hi`, but
the client obtains the 408. -/
theorem C174_false (c : Cfg) : let _ := asciiCase
    let conn := forward (answerBytes tooLate) (answerBytes (okAnswer b!"hi")) none 10000
    (exchange (c := c) (oneConnector conn) (sampleAsk [4]).exchange ⟨[((), conn)]⟩ ()).1 =
      .ok (.got .RequestTimeout tooLate.headers [.ok []]) := by
  rcases c with ⟨_ | _⟩ <;> decide +kernel

theorem tooLate_proper : let _ := asciiCase; tooLate.Proper := by
  intro _
  have hl : LengthText b!"0" 0 := lengthText_iff.1 (by decide +kernel)
  have hraw := unsignedText_rawLine hl.1
  refine ⟨⟨by unfold SortedNames tooLate; simp, ?_, ?_⟩, .limited (by simp [tooLate]) (by simp [tooLate]) hl⟩
  · intro kv hkv; simp [tooLate] at hkv; subst hkv; dsimp only; decide
  · intro kv hkv
    simp only [tooLate, List.mem_cons, List.not_mem_nil, or_false] at hkv
    subst hkv
    refine ⟨isText_ascii ?_, ?_, ?_, ?_, hraw.2.2, hraw.2.1⟩ <;> dsimp only
    · decide
    · decide
    · unfold HasCrLf; decide
    · rw [← startsBlank_iff]; decide

theorem forward_trace (early answer : Bytes) (idle : Option Err) (seg : Nat) :
    trace (forward early answer idle seg) = early.map .byte ++ idleEvs idle := by
  rw [Talker.trace_eq]
  have : (forward early answer idle seg).rest = early := by
    unfold Talker.rest forward
    dsimp only
    rw [show wire (σ := Sink) ⟨[], 0, [.accept 3, .accept 1]⟩ = [] from rfl]; simp
  rw [this]
  cases idle <;> rfl

/-- `C174_early_partial`: the peer has sent the 408 on a pooled connection. -/
example (c : Cfg) (seg : Nat) : let _ := asciiCase
    ∃ st rs, (exchange (c := c) (oneConnector (forward (answerBytes tooLate) (answerBytes (okAnswer b!"hi")) none seg))
      (sampleAsk [4, 4]).exchange ⟨[((), forward (answerBytes tooLate) (answerBytes (okAnswer b!"hi")) none seg)]⟩ ()).1 =
        .ok (.got st tooLate.headers rs) ∧ st.toCode = 408 ∧ ReadAll rs [] := by
  obtain ⟨P, hr, hP, hidle, hPs⟩ := talker_setting c none
    (forward (answerBytes tooLate) (answerBytes (okAnswer b!"hi")) none seg) rfl rfl (by
      intro a ha
      simp [forward] at ha
      rcases ha with rfl | rfl
      · exact ⟨2, rfl⟩
      · exact ⟨0, rfl⟩)
  obtain ⟨out, h1, _, _, h2⟩ := @C174_early_partial asciiCase c Unit Unit Talker _ _ _ (oneConnector _) P hr _ hP hidle ()
    ⟨[((), forward (answerBytes tooLate) (answerBytes (okAnswer b!"hi")) none seg)]⟩ _ (.inl rfl) hPs rfl
    (answerBytes tooLate) (forward_trace _ _ none seg) (sampleAsk [4, 4]) (okAnswer b!"hi") (sampleAsk_proper _)
    (okAnswer_proper _ (by decide)) (fun _ => rfl) (by unfold Positive sampleAsk; decide) (by decide) (by
      intro bytes hb
      refine ⟨(answerBytes (okAnswer b!"hi")).map .byte, ?_, answer_sent c _, trivial⟩
      have hl := sampleAsk_bytes _ _ hb
      show (answerBytes tooLate ++ if ([] ++ bytes).length < 62 then [] else answerBytes (okAnswer b!"hi")).map Ev.byte ++ [] = _
      rw [if_neg (by rw [List.nil_append, hl]; omega), List.map_append]
      rfl) ()
  obtain ⟨st, rs, h3, h4, h5⟩ := h2 tooLate tooLate_proper (by decide) [] (by simp [answerBytes])
  exact ⟨st, rs, by rw [h1, h3], h4, h5⟩

/-- `C174_joined_partial`: the peer has sent a chunked response, here with a 408; the request obtains that one. -/
example (c : Cfg) (seg : Nat) : letI : CaseMap := asciiCase
    let early := b!"HTTP/1.1 408 Late\r\ntransfer-encoding: chunked\r\n\r\n1\r\nx\r\n0\r\n\r\n"
    ∃ (b : HttpRequestBuilder c) (o o' : OutgoingRequest c Talker), HttpRequestBuilder.new c (HttpUrl.tryFrom (sampleAsk [4]).url) .Get = .ok b ∧
      b.send (forward early (answerBytes (okAnswer b!"hi")) none seg) = .ok o ∧ perform o [] = (true, o') ∧
      ∃ r, o'.finish.1 = .ok r ∧ r.status.toCode = 408 ∧ framing r.body = .chunked := by
  letI : CaseMap := asciiCase
  intro early
  obtain ⟨P, hr, _, _, hPs⟩ := talker_setting c none (forward early (answerBytes (okAnswer b!"hi")) none seg) rfl rfl (by
      intro a ha
      simp [forward] at ha
      rcases ha with rfl | rfl
      · exact ⟨2, rfl⟩
      · exact ⟨0, rfl⟩)
  obtain ⟨b, o, o', evs, h1, h2, h3, h4, h5⟩ := C174_joined_partial (κ := Unit)
    (said := fun _ evs => evs = (answerBytes (okAnswer b!"hi")).map .byte) hr
    (forward early (answerBytes (okAnswer b!"hi")) none seg) hPs rfl (sampleAsk [4]) (sampleAsk_proper _) []
    (early.map .byte) () [] (by
      intro bytes hb
      refine ⟨_, ?_, rfl, trivial⟩
      have hl := sampleAsk_bytes _ _ hb
      show (early ++ if ([] ++ bytes).length < 62 then [] else answerBytes (okAnswer b!"hi")).map Ev.byte ++ [] = _
      rw [if_neg (by rw [List.nil_append, hl]; omega), List.map_append]
      rfl)
  refine ⟨b, o, o', h1, h2, h3, ?_⟩
  have h6 := h5 (Wire.mk [.data (early ++ answerBytes (okAnswer b!"hi"))]) (by rw [h4]; decide +kernel)
  have h7 : (match (HttpResponse.deserialize c (Wire.mk [.data (early ++ answerBytes (okAnswer b!"hi"))])).1 with
    | .ok r => decide (r.status.toCode = 408 ∧ framing r.body = .chunked)
    | _ => false) = true := by rcases c with ⟨_ | _⟩ <;> decide +kernel
  revert h6 h7
  generalize (HttpResponse.deserialize c (Wire.mk [.data (early ++ answerBytes (okAnswer b!"hi"))])).1 = x
  intro h6 h7
  generalize o'.finish.1 = y at h6
  cases h6 with
  | ok hr =>
    obtain ⟨k1, k2⟩ := of_decide_eq_true h7
    exact ⟨_, rfl, by rw [hr.2.1]; exact k1, by rw [hr.2.2.2.kind]; exact k2⟩
  | err e => simp at h7
  | panic => simp at h7

/-- A scripted peer that says something at once. -/
def forwardScript (early : Bytes) (answers : List Bytes) (seg : Nat) : Talker where
  reply w := early ++ (script 62 answers none seg).reply w
  mono w x := (List.prefix_append_right_inj _).2 ((script 62 answers none seg).mono w x)
  idle := none
  seg := seg
  sink := ⟨[], 0, [.accept 3, .accept 1]⟩
  got := []
  got_le := List.nil_prefix
  dead := false
  dead_got := by simp

theorem serves_after {κ : Type} {said : κ → List Ev → Prop} {pr : Bytes → List Ev} {idle : List Ev} (pre : List Ev)
    (list : List (Ask × κ)) : ∀ {w : Bytes} {got : List Ev}, Serves said pr idle w got list →
      Serves said (fun w => pre ++ pr w) idle w (pre ++ got) list := by
  induction list with
  | nil => intros; trivial
  | cons x rest ih =>
    intro w got h bytes hb
    obtain ⟨evs, h1, h2, h3⟩ := h bytes hb
    exact ⟨evs, by dsimp only; rw [h1]; simp, h2, by have := ih h3; rwa [← List.append_assoc] at this⟩

theorem forwardScript_peer (early : Bytes) (answers : List Bytes) (seg : Nat) (w : Bytes) :
    PeerSocket.peer (forwardScript early answers seg) w =
      early.map .byte ++ PeerSocket.peer (script 62 answers none seg) w := by
  show Talker.said _ _ = _ ++ Talker.said _ _
  unfold Talker.said forwardScript
  simp [script]

theorem forwardScript_trace (early : Bytes) (answers : List Bytes) (seg : Nat) :
    trace (forwardScript early answers seg) = early.map .byte ++ [] := by
  rw [Talker.trace_eq]
  have : (forwardScript early answers seg).rest = early := by
    unfold Talker.rest forwardScript script
    dsimp only
    rw [show wire (σ := Sink) ⟨[], 0, [.accept 3, .accept 1]⟩ = [] from rfl]; simp
  rw [this]
  rfl

/-- `C174_shift_false`: after the 408 the second request obtains the answer to the first. -/
example (seg : Nat) : let _ := asciiCase
    let conn := forwardScript (answerBytes tooLate) [answerBytes (okAnswer b!"one"), answerBytes (okAnswer b!"two")] seg
    ∃ st rs, (history (c := ⟨false⟩) (oneConnector conn) [(sampleAsk [4]).exchange, (sampleAsk [4, 4, 4]).exchange]
      ⟨[((), conn)]⟩ ()).1[1]? = some (.ok (.got st (okAnswer b!"one").headers rs)) ∧ st.toCode = 200 ∧ ReadAll rs b!"one" := by
  intro _ conn
  obtain ⟨P, hr, hP, _, hPs⟩ := talker_setting ⟨false⟩ none conn rfl rfl (by
      intro a ha
      simp [conn, forwardScript] at ha
      rcases ha with rfl | rfl
      · exact ⟨2, rfl⟩
      · exact ⟨0, rfl⟩)
  refine (@C174_shift_false asciiCase ⟨false⟩ Unit Unit Talker _ _ _ rfl (oneConnector conn) P hr _ hP ()
    [(sampleAsk [4], okAnswer b!"one"), (sampleAsk [4, 4, 4], okAnswer b!"two")] (fun _ _ _ => rfl) ?_ tooLate tooLate_proper
    ?_ ⟨[((), conn)]⟩ conn (.inl rfl) hPs rfl _ (answer_sent _ tooLate) (forwardScript_trace _ _ _) ?_ ()).2 1
      (sampleAsk [4, 4, 4]) (okAnswer b!"one") rfl
  · intro x hx
    simp only [List.mem_cons, List.not_mem_nil, or_false] at hx
    rcases hx with rfl | rfl <;>
      exact ⟨sampleAsk_proper _, okAnswer_proper _ (by decide), by unfold Positive sampleAsk; decide⟩
  · intro x hx
    simp only [shifted, List.mem_cons, List.not_mem_nil, or_false] at hx
    rcases hx with rfl | rfl <;> decide
  · have h := script_serves (Answer.Sent ⟨false⟩) (n := 62) (by omega) none seg
      [(sampleAsk [4], okAnswer b!"one", answerBytes (okAnswer b!"one")),
       (sampleAsk [4, 4, 4], okAnswer b!"two", answerBytes (okAnswer b!"two"))]
      (by
        intro x hx bytes hb
        simp only [List.mem_cons, List.not_mem_nil, or_false] at hx
        rcases hx with rfl | rfl <;> exact sampleAsk_bytes _ _ hb)
      (by
        intro x hx
        simp only [List.mem_cons, List.not_mem_nil, or_false] at hx
        rcases hx with rfl | rfl <;> exact answer_sent _ _)
    have h' := serves_after ((answerBytes tooLate).map .byte) _ h
    rw [List.append_nil] at h'
    rw [show PeerSocket.peer conn = fun w => (answerBytes tooLate).map .byte ++
      PeerSocket.peer (script 62 [answerBytes (okAnswer b!"one"), answerBytes (okAnswer b!"two")] none seg) w from
        funext fun w => forwardScript_peer _ _ _ _]
    exact h'

end HttpIo
