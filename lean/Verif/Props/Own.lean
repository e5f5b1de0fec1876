import Verif.Spec.Own
import Verif.Props.Connect
import Verif.Props.EndToEnd
import Verif.Props.Reuse
import Verif.Props.Abandon

/-! C70: the pooled client connected to the crate's own server. -/

namespace HttpIo
open Spec

section
variable [CaseMap] {c : Cfg} {σ : Type} [PeerSocket σ] [ZeroReader σ]

omit [CaseMap] in
/-- A connection whose peer will not send anything more, whatever it gets. -/
theorem deaf_closed (pr : Bytes → List Ev) (w : Bytes) (got : List Ev) (h : ∀ more, pr (w ++ more) = got) :
    Closed fun s : σ => PeerSocket.peer s = pr ∧ PeerSocket.taken s = got ∧ w <+: wire s := by
  have htr : ∀ s : σ, PeerSocket.peer s = pr → PeerSocket.taken s = got → w <+: wire s → trace s = [] := by
    intro s h1 h2 ⟨x, h3⟩
    have := PeerSocket.heard s
    rw [h1, h2, ← h3, h] at this
    simpa using this
  have hk := peer_kept (σ := σ) pr got
  refine ⟨?_, ?_, ?_, ?_, ?_⟩
  · rintro s n bs ⟨h1, h2, h3⟩ hr
    have ht := htr s h1 h2 h3
    by_cases hn : n = 0
    · subst hn
      rcases ZeroReader.read_zero s with ⟨h4, _⟩ | ⟨e, t, h4, _⟩
      · rw [show (Reader.read s 0).1 = .ok [] from h4] at hr
        simpa using hr.symm
      · rw [ht] at h4; simp at h4
    · rw [(read_nil (by omega) ht).1] at hr
      simpa using hr.symm
  · rintro s n ⟨h1, h2, h3⟩
    have h4 : PeerSocket.peer (read s n).2 = pr := by rw [PeerSocket.read_peer]; exact h1
    have h5 : w <+: wire (read s n).2 := by rw [PeerSocket.read_wire]; exact h3
    refine ⟨h4, ?_, h5⟩
    have h6 := PeerSocket.heard (read s n).2
    have h7 := read_suffix s n
    rw [htr s h1 h2 h3, List.suffix_nil] at h7
    obtain ⟨x, hx⟩ := h5
    rw [h7, h4, ← hx, h, List.append_nil] at h6
    exact h6
  · rintro s buf ⟨h1, h2, h3⟩
    have := hk.write s buf ⟨h1, h2⟩
    exact ⟨this.1, this.2, h3.trans (LawfulWriter.write_wire s buf)⟩
  · rintro s ⟨h1, h2, h3⟩
    have := hk.flush s ⟨h1, h2⟩
    exact ⟨this.1, this.2, h3.trans (LawfulWriter.flush_wire s)⟩
  · rintro c s buf ⟨h1, h2, h3⟩
    have := hk.writeAll c s buf ⟨h1, h2⟩
    exact ⟨this.1, this.2, h3.trans (LawfulWriter.writeAll_wire c s buf)⟩

omit [CaseMap] in
/-- Reading a body that runs to the end of the stream. -/
theorem closed_read {ρ : Type} [LawfulReader ρ] [ZeroReader ρ] (u : ρ) (body : Bytes) (hu : trace u = body.map .byte)
    (sizes : List Nat) (hp : Positive sizes) (hlen : body.length ≤ sizes.length) :
    ReadAll (calls (HttpBody.ReadTilClose u : HttpBody c ρ) sizes).1 body ∧
      ∃ s, (calls (HttpBody.ReadTilClose u : HttpBody c ρ) sizes).2.under = some s ∧ trace s = [] := by
  rw [HttpBody.calls_tilClose]
  obtain ⟨h1, h2, h3⟩ := calls_seen u hp
  have hnil : trace (calls u sizes).2 = [] := by
    by_cases hne : trace (calls u sizes).2 = []
    · exact hne
    · have h4 := h3 hne
      have h5 := congrArg List.length h1
      have h6 := List.length_pos_iff.2 hne
      rw [hu, List.length_append, List.length_map] at h5
      omega
  refine ⟨?_, _, rfl, hnil⟩
  rcases yields_of_trace hu sizes hp with ⟨p, h4, h5, h6⟩ | ⟨rs, k, h4, h5⟩
  · refine ⟨_, 0, (List.append_nil _).symm, ?_⟩
    have hseen : seen (calls u sizes).1 = p.map .byte := by
      obtain ⟨xs, e1, e2, e3⟩ := h4
      rw [e1, ← e3]
      clear e1 e2 e3
      induction xs with
      | nil => rfl
      | cons x xs ih => rw [List.map_cons, seen, List.flatten_cons, List.map_append]; exact congrArg _ ih
    rw [hnil, List.append_nil, hseen, hu] at h1
    have : body = p := by
      have := congrArg (List.map fun | Ev.byte b => b | .fault _ => 0) h1
      simpa [List.map_map, Function.comp_def] using this
    dsimp only
    rw [this]; exact h4
  · exact ⟨rs, k + 1, h4, h5⟩

end

section
variable [CaseMap] {c c' : Cfg} {ω α σ : Type} [DecidableEq α] [PeerSocket σ] [ZeroReader σ]
  {η τ ρ ε : Type} [LawfulReader τ] [ZeroReader τ] [LawfulWriter τ] [LawfulReader ρ] [ZeroReader ρ]

/-- A response that is followed by the end of the stream, all read. -/
theorem response_last (s : σ) (a : Answer) (ha : a.Plain) (sizes : List Nat) (hp : Positive sizes)
    (hlen : a.body.length ≤ sizes.length)
    (hs : trace s = (responseHead a.status.display a.headers.entries ++ a.body).map .byte) :
    ∃ r s2 s3, HttpResponse.deserialize c s = (.ok r, s2) ∧ r.status = HttpStatus.fromCode a.status.toCode ∧
      r.headers = a.headers ∧ ReadAll (calls r.body sizes).1 a.body ∧ (calls r.body sizes).2.under = some s3 ∧
      trace s3.inner = [] := by
  have hdel : Delivers c (trace s) (responseHead a.status.display a.headers.entries) (a.body.map .byte) := by
    rw [hs, List.map_append]; exact delivers_map c _ _
  have hl : LengthOk a.headers.entries := by
    rcases ha.framed with h | h
    · intro v hv
      cases h with
      | tilClose _ h2 => exact absurd hv (h2 v)
    · exact FramedBy.lengthOk ha.sendable.1 h
  obtain ⟨r, s2, f1, f2, _, f3, f4, f5, f6⟩ := response_delivered c s a.status a.headers _ ha.sendable hl hdel
  have key : ReadAll (calls r.body sizes).1 a.body ∧ ∃ s3, (calls r.body sizes).2.under = some s3 ∧ trace s3 = [] := by
    rcases ha.framed with h | h <;> have hfr := framedBy_unique ha.sendable.1 f4 h
    · have hbody : r.body = .ReadTilClose (BufReader.new c s2) := by
        cases hb : r.body with
        | Chunked i => rw [hb] at hfr; simp [framing] at hfr
        | Limited i => rw [hb] at hfr; simp [framing] at hfr
        | ReadTilClose i =>
          rw [hb] at f5
          simp only [HttpBody.under, Option.some.injEq] at f5
          rw [f5]
      rw [hbody]
      exact closed_read _ _ (by rw [BufReader.trace_new, f6]) sizes hp hlen
    · have hbody : r.body = .Limited ⟨BufReader.new c s2, a.body.length⟩ := by
        cases hb : r.body with
        | Chunked i => rw [hb] at hfr; simp [framing] at hfr
        | ReadTilClose i => rw [hb] at hfr; simp [framing] at hfr
        | Limited t =>
          rw [hb] at hfr f5
          obtain ⟨i, l⟩ := t
          simp only [framing, Framing.limited.injEq] at hfr
          simp only [HttpBody.under, Option.some.injEq] at f5
          rw [hfr, f5]
      rw [hbody]
      exact limited_read _ _ [] (by rw [BufReader.trace_new, f6, List.append_nil]) sizes hp hlen
  obtain ⟨k1, s3, k2, k3⟩ := key
  obtain ⟨left, l1, l2, _⟩ := bufReader_left s3 [] [] (by simp) k3
  rw [List.suffix_nil.1 l1] at l2
  exact ⟨r, s2, s3, f1, f2, f3, k1, k2, l2⟩

/-- The pooled client and the crate's own server: the first request to an address is answered with what the handler gave
the server. If the caller reads that response to its end, then no later request to the address, whatever their number and
whatever they send, is answered; and the client does not open another connection. (`C55_end_to_end` has the same first
request without a pool.) -/
theorem C70_first_partial {P : σ → Prop} {Q : τ → Prop} (hr : Reliable c P) (hra : ReadsApart τ) (hrel : Reliable c' Q)
    (hkept : ∀ s n, Q s → Q (read s n).2) (h : Handler c' η τ ρ ε) (ho : OnlyReads h) (errText : Err → Bytes) (self : η)
    (N : StreamConnector ω α σ) (a : α) (q : Ask) (qs : List Ask) (hq : q.Proper)
    (haddr : ∀ q' ∈ q :: qs, ∀ w, ∃ w1, N.toStreamAddr q'.url w = (.ok a, w1)) (cl : HttpClient α σ)
    (hnew : poolGet a cl.streams = none) (s : σ) (hconn : ∀ w, ∃ w1, N.connect a w = (.ok s, w1)) (hP : P s)
    (hfresh : sent s = [] ∧ PeerSocket.taken s = []) (hserver : ServesOnce h errText self Q q (PeerSocket.peer s))
    (ans : Answer) (hplain : ans.Plain) (hans : AnswersWith h errText self q ans)
    (hsizes : Positive q.sizes) (hlen : ans.body.length ≤ q.sizes.length) (w : ω × List (α × Bool)) :
    (∃ st rs, (history (c := c) (logged N) ((q :: qs).map Ask.exchange) cl w).1[0]? = some (.ok (.got st ans.headers rs)) ∧
      st.toCode = ans.status.toCode ∧ ReadAll rs ans.body) ∧
    (∀ k, 0 < k → ∀ st hd rs,
      (history (c := c) (logged N) ((q :: qs).map Ask.exchange) cl w).1[k]? ≠ some (.ok (.got st hd rs))) ∧
    (history (c := c) (logged N) ((q :: qs).map Ask.exchange) cl w).2.2.2 = w.2 ++ [(a, true)] := by
  have hw0 : wire s = [] := by
    have := LawfulWriter.wire_sent s
    rw [hfresh.1, List.prefix_nil] at this
    exact this
  obtain ⟨b, o, o', s1, bytes, h1, h2, h3, h4, h5, h6, h7, h8, h9, h10⟩ :=
    request_sent hr s hP (by rw [hw0, hfresh.1]) q hq
  rw [hw0, List.nil_append] at h6
  obtain ⟨t, rest, t', g1, g2, g3, g4, g5⟩ := hserver bytes h5
  obtain ⟨r, r1, r2, r3, r4, u, r5, r6⟩ := hans bytes t rest h5 g3
  obtain ⟨_, d, e1, _, e2⟩ := serve_succeeds hra hrel hkept h ho errText t self g1 r r1 r2 ans.body u r5 r6
  rw [e1, Option.some.injEq] at g4
  subst g4
  rw [g2, List.nil_append, r3, r4] at e2
  rw [e2] at g5
  have htr : trace s1 = (responseHead ans.status.display ans.headers.entries ++ ans.body).map .byte := by
    have := PeerSocket.heard s1
    rw [h9, h10, hfresh.2, h6, List.nil_append, ← List.append_nil bytes, g5] at this
    exact this
  obtain ⟨r', s2, s3, f1, f2, f3, f4, f5, f6⟩ := response_last (c := c) s1 ans hplain q.sizes hsizes hlen htr
  have hk := body_kept (P := fun _ => True) (idle := []) (fun _ _ _ _ => trivial) trivial h7 f1 f5
  have hD := deaf_closed (σ := σ) (PeerSocket.peer s) bytes _ g5
  have hD3 : PeerSocket.peer s3.inner = PeerSocket.peer s ∧
      PeerSocket.taken s3.inner = (responseHead ans.status.display ans.headers.entries ++ ans.body).map .byte ∧
      bytes <+: wire s3.inner := by
    have := PeerSocket.heard s3.inner
    rw [f6, List.append_nil, hk.1, h9, hk.2.1, h6, ← List.append_nil bytes, g5] at this
    exact ⟨hk.1.trans h9, this, by rw [hk.2.1, h6]; exact List.prefix_refl _⟩
  obtain ⟨w1, hw1⟩ := haddr q (by simp) w.1
  obtain ⟨w2, hw2⟩ := hconn w1
  have hl : (logged N).toStreamAddr q.url w = (.ok a, w1, w.2) := logged_addr_eq hw1
  have hc : (logged N).connect a (w1, w.2) = (.ok s, w2, w.2 ++ [(a, true)]) := by
    show (match N.connect a w1 with
      | (.ok s, w') => (.ok s, w', w.2 ++ [(a, true)])
      | (.err e, w') => (.err e, w', w.2 ++ [(a, false)])
      | (.panic, w') => (.panic, w', w.2 ++ [(a, false)]) : Res σ × ω × List (α × Bool)) = _
    rw [hw2]
  obtain ⟨cl', x1, x2, _⟩ := exchange_on (logged N) (q.exchange (c := c)) cl w (w1, w.2) (w2, w.2 ++ [(a, true)]) q.url b rfl
    h1 a s hl (.inr ⟨hnew, hc⟩)
  rw [h2] at x1 x2
  dsimp only [Ask.exchange] at x1 x2
  rw [roundTrip_got h3 h4 f1 f5] at x1 x2
  dsimp only at x2
  obtain ⟨y1, y2⟩ := C48_never_replaced (c := c) N hD qs cl' (w2, w.2 ++ [(a, true)]) a
    (fun q' hq' => haddr q' (by simp [hq'])) s3.inner x2 hD3
  have hh : history (c := c) (logged N) ((q :: qs).map Ask.exchange) cl w =
      (.ok (.got r'.status r'.headers (calls r'.body q.sizes).1) ::
        (history (c := c) (logged N) (qs.map Ask.exchange) cl' (w2, w.2 ++ [(a, true)])).1,
      (history (c := c) (logged N) (qs.map Ask.exchange) cl' (w2, w.2 ++ [(a, true)])).2) := by
    rw [List.map_cons, history]
    show ((exchange (logged N) q.exchange cl w).1 :: _, _) = _
    rw [show exchange (logged N) (q.exchange (c := c)) cl w = _ from x1]
  rw [hh]
  refine ⟨⟨r'.status, _, by rw [f3]; rfl, by rw [f2, C01_code_lossless], f4⟩, ?_, y1⟩
  intro k hk' st hd rs heq
  obtain ⟨k, rfl⟩ : ∃ j, k = j + 1 := ⟨k - 1, by omega⟩
  rw [List.getElem?_cons_succ] at heq
  exact y2 _ (List.mem_of_getElem? heq) st hd rs rfl

end

/-- A handler that says hello. -/
def greeter (c : Cfg) : Handler c Unit (Duplex Wire Sink) Wire Bytes :=
  { Handler.defaults c Unit (Duplex Wire Sink) Wire Bytes fun e => ServerResponse.fromString c .NotFound e with
    get := fun _ n => (.ok (ServerResponse.fromString c .OK b!"hello"), n) }

/-- What it answers with. -/
def greeting : Answer := ⟨.OK, ⟨[]⟩, b!"hello"⟩

theorem greeting_plain [CaseMap] : greeting.Plain :=
  ⟨⟨by unfold SortedNames greeting; simp, by simp [greeting], by simp [greeting]⟩,
    .inl (.tilClose (by simp [greeting]) (by simp [greeting]))⟩

theorem greeter_answers [CaseMap] (c : Cfg) (errText : Err → Bytes) (sizes : List Nat) :
    AnswersWith (greeter c) errText () (sampleAsk sizes) greeting := by
  rintro bytes s rest ⟨host, h1, h2⟩ hs
  simp only [sampleAsk, sampleUrl, Option.some.injEq] at h1
  subst h1
  rw [if_neg (by simp [sampleAsk])] at h2
  subst h2
  have hh : SendableHeaders (standardHeaders .Get b!"h") ∧ LengthOk (standardHeaders .Get b!"h") := by
    obtain ⟨b', e1, _, _, _, e5⟩ := HttpRequestBuilder.new_ok c ⟨sampleUrl, .Https, b!"h"⟩ .Get
    have := built_headers e1 ⟨isText_ascii (by decide), by unfold HasCrLf; decide⟩ [] (by simp)
    dsimp only at this
    rw [List.foldl_nil, e5] at this
    exact ⟨this.2.2.2.1, this.2.2.2.2.1⟩
  obtain ⟨r, s1, f1, f2, f3, _, _, _, _, _⟩ := C18_roundtrip c (BufReader.new c s) .Get
    (requestTarget { sampleUrl with query := none }) ⟨standardHeaders .Get b!"h"⟩ rest
    ⟨by decide, isText_ascii (by decide), by decide, by decide, by unfold HasCrLf; decide⟩ hh.1 hh.2
    (by rw [BufReader.trace_new, hs]; exact delivers_map c _ _)
  obtain ⟨g1, _⟩ := C50_handed (greeter c) errText s () r s1 f1 (by rintro (h | h) <;> rw [f2] at h <;> simp at h)
  rw [f2] at g1
  obtain ⟨k1, k2, k3, k4⟩ := fromString_body (c := c) (ρ := Wire) .OK b!"hello"
  exact ⟨_, .inl g1, k1, k2, rfl, k4⟩

/-- The peer of a client whose first request is `sampleAsk`: everything that `greeter` sends, then the end of the stream. -/
def greeterPeer (seg : Nat) : Talker := script 62 [answerBytes greeting] none seg

theorem greeterPeer_serves [CaseMap] (c : Cfg) (errText : Err → Bytes) (sizes : List Nat) (seg : Nat) :
    ServesOnce (greeter c) errText () (fun d : Duplex Wire Sink => ∀ a ∈ d.wr.plan, (∃ n, a = .accept (n + 1)) ∨
      ∃ e, a = .fault e ∧ Retried c e) (sampleAsk sizes) (PeerSocket.peer (greeterPeer seg)) := by
  intro bytes hb
  have hP : ∀ a ∈ (⟨⟨[.data bytes]⟩, ⟨[], 0, []⟩⟩ : Duplex Wire Sink).wr.plan, (∃ n, a = .accept (n + 1)) ∨
      ∃ e, a = .fault e ∧ Retried c e := by simp
  have htr : trace (⟨⟨[.data bytes]⟩, ⟨[], 0, []⟩⟩ : Duplex Wire Sink) = bytes.map .byte ++ [] := by
    show trace (Wire.mk [.data bytes]) = _
    rw [Wire.trace_eq]; simp [WireEv.events]
  obtain ⟨r, r1, r2, r3, r4, u, r5, r6⟩ := greeter_answers c errText sizes bytes _ [] hb htr
  obtain ⟨_, d, e1, _, e2⟩ := serve_succeeds duplex_readsApart (duplex_reliable (sink_reliable c)) (fun _ _ h => h) (greeter c)
    ⟨fun _ _ _ => ⟨[], rfl⟩, fun _ _ _ => ⟨[], rfl⟩⟩ errText _ () hP r r1 r2 _ u r5 r6
  refine ⟨_, [], d, hP, rfl, htr, e1, fun more => ?_⟩
  rw [e2, r3, r4, greeterPeer, script_peer, List.length_append, sampleAsk_bytes sizes bytes hb]
  rw [List.take_of_length_le (by have : 1 ≤ (62 + more.length) / 62 := (Nat.le_div_iff_mul_le (by omega)).2 (by omega)
                                 simpa using this)]
  simp only [List.flatten_cons, List.flatten_nil, List.append_nil, idleEvs]
  rfl

/-- Three requests of a client to a server with the handler `greeter`. -/
example (c : Cfg) (errText : Err → Bytes) : let _ := asciiCase
    let r := history (c := c) (logged (oneConnector (greeterPeer 2))) ((List.replicate 3 (sampleAsk [1, 2, 1, 1, 1])).map Ask.exchange)
      ⟨[]⟩ ((), [])
    (∃ st rs, r.1[0]? = some (.ok (.got st ⟨[]⟩ rs)) ∧ st.toCode = 200 ∧ ReadAll rs b!"hello") ∧
    (∀ k, 0 < k → ∀ st hd rs, r.1[k]? ≠ some (.ok (.got st hd rs))) ∧ r.2.2.2 = [((), true)] := by
  intro _
  obtain ⟨P, h1, _, _, h4, h5, _⟩ := script_setting c 62 [answerBytes greeting] none 2
  exact C70_first_partial h1 duplex_readsApart (duplex_reliable (sink_reliable c)) (fun _ _ h => h) (greeter c)
    ⟨fun _ _ _ => ⟨[], rfl⟩, fun _ _ _ => ⟨[], rfl⟩⟩ errText () (oneConnector (greeterPeer 2)) () _
    (List.replicate 2 (sampleAsk [1, 2, 1, 1, 1])) (sampleAsk_proper _) (fun _ _ w => ⟨w, rfl⟩) ⟨[]⟩ rfl (greeterPeer 2)
    (fun w => ⟨w, rfl⟩) h4 ⟨rfl, script_taken _ _ _ _⟩ (greeterPeer_serves c errText _ 2) greeting greeting_plain
    (greeter_answers c errText _) (by simp [sampleAsk, Positive]) (by decide) ((), [])

/-- False: with the crate's own server as the peer, every request made through the client obtains a response. Witness: the
handler `greeter` and two requests. `C70_first_partial` says what happens instead. -/
theorem C70_reuse_false : let _ := asciiCase
    ¬ ∀ (c c' : Cfg) (Q : Duplex Wire Sink → Prop) (h : Handler c' Unit (Duplex Wire Sink) Wire Bytes) (errText : Err → Bytes)
        (q : Ask) (n : Nat) (s : Talker) (ans : Answer), OnlyReads h → q.Proper → sent s = [] → PeerSocket.taken s = [] →
        ServesOnce h errText () Q q (PeerSocket.peer s) → ans.Plain → AnswersWith h errText () q ans →
        Positive q.sizes → ans.body.length ≤ q.sizes.length →
        ∀ o ∈ (history (c := c) (logged (oneConnector s)) ((List.replicate n q).map Ask.exchange) ⟨[]⟩ ((), [])).1,
          ∃ st hd rs, o = .ok (.got st hd rs) := by
  intro _ hall
  have hone := hall ⟨true⟩ ⟨true⟩ _ (greeter ⟨true⟩) (fun _ => []) (sampleAsk [1, 1, 1, 1, 1]) 2 (greeterPeer 2) greeting
    ⟨fun _ _ _ => ⟨[], rfl⟩, fun _ _ _ => ⟨[], rfl⟩⟩ (sampleAsk_proper _) rfl (script_taken _ _ _ _)
    (greeterPeer_serves ⟨true⟩ _ _ 2) greeting_plain (greeter_answers ⟨true⟩ _ _) (by simp [sampleAsk, Positive]) (by decide)
  obtain ⟨P, h1, _, _, h4, h5, _⟩ := script_setting ⟨true⟩ 62 [answerBytes greeting] none 2
  obtain ⟨_, h7, _⟩ := C70_first_partial (c := ⟨true⟩) h1 duplex_readsApart (duplex_reliable (sink_reliable ⟨true⟩)) (fun _ _ h => h)
    (greeter ⟨true⟩) ⟨fun _ _ _ => ⟨[], rfl⟩, fun _ _ _ => ⟨[], rfl⟩⟩ (fun _ => []) () (oneConnector (greeterPeer 2)) ()
    (sampleAsk [1, 1, 1, 1, 1])
    (List.replicate 1 (sampleAsk [1, 1, 1, 1, 1])) (sampleAsk_proper _) (fun _ _ w => ⟨w, rfl⟩) ⟨[]⟩ rfl (greeterPeer 2)
    (fun w => ⟨w, rfl⟩) h4 ⟨rfl, script_taken _ _ _ _⟩ (greeterPeer_serves ⟨true⟩ _ _ 2) greeting greeting_plain
    (greeter_answers ⟨true⟩ _ _) (by simp [sampleAsk, Positive]) (by decide) ((), [])
  have hlen : ∀ (xs : List (Exchange ⟨true⟩ Talker Outcome)) cl w,
      (history (logged (oneConnector (greeterPeer 2))) xs cl w).1.length = xs.length := by
    intro xs
    induction xs with
    | nil => intro cl w; rfl
    | cons x xs ih => intro cl w; rw [history, List.length_cons, ih, List.length_cons]
  have hl := hlen ((List.replicate 2 (sampleAsk [1, 1, 1, 1, 1])).map Ask.exchange) ⟨[]⟩ ((), [])
  obtain ⟨st, hd, rs, ho⟩ := hone _ (List.getElem_mem (n := 1) (by rw [hl]; simp))
  exact h7 1 (by omega) st hd rs (by rw [← ho]; exact List.getElem?_eq_getElem _)

end HttpIo
