import Verif.Spec.Remote
import Verif.Props.Service
import Verif.Props.GotFrom
import Verif.Props.EndToEnd

/-! C194: calling a service over the network. -/

namespace HttpIo
open Spec

section
variable [CaseMap] {c c' : Cfg} {ρ σ : Type} [LawfulReader ρ] [ZeroReader ρ] [LawfulWriter σ]

omit [ZeroReader ρ] in
/-- What the server reads of a request that the client has sent. -/
theorem wire_read (d d1 : Duplex ρ σ) (hd : sent d.wr = []) (u : Url) (host : Bytes) (m : HttpMethod)
    (b : HttpRequestBuilder c) (hb : HttpRequestBuilder.new c (HttpUrl.tryFrom u) m = .ok b) (hhost : u.host = some host)
    (htext : IsText host ∧ ¬ HasCrLf host) (htarget : SendableTarget (requestTarget { u with query := none }))
    (adds : List (Bytes × Bytes)) (ha : ∀ kv ∈ adds, Addable kv)
    (o o' : OutgoingRequest c (Duplex ρ σ)) (hsend : (adds.foldl (fun b kv => b.addHeader kv.1 kv.2) b).send d = .ok o)
    (cs : List WCall) (hlen : ∀ buf ∈ written cs, buf.length < 2 ^ 64) (hp : perform o cs = (true, o'))
    (hcomp : o'.complete = .ok d1) {τ : Type} [LawfulReader τ] [ZeroReader τ] (s : τ) (rest : List Ev)
    (hs : trace s = (wire d1.wr).map .byte ++ rest) :
    ∃ rq s1, HttpRequest.deserialize c' (BufReader.new c' s) = (.ok rq, s1) ∧ rq.method = m ∧
      rq.uri = requestTarget { u with query := none } ∧ Acceptable rq ∧ (Hands m → trace rq.body = (written cs).flatten.map .byte) := by
  cases ht : HttpUrl.tryFrom u with
  | err e => rw [ht] at hb; simp [HttpRequestBuilder.new] at hb
  | panic => rw [ht] at hb; simp [HttpRequestBuilder.new] at hb
  | ok v =>
  rw [ht] at hb
  obtain ⟨v1, v2, _⟩ := HttpUrl.tryFrom_inv ht
  have hvh : v.host = host := by rw [hhost] at v2; simpa using v2.symm
  obtain ⟨k1, k2, k3, k4, k5, k6⟩ := built_headers hb (by rw [hvh]; exact htext) adds ha
  generalize hr : (adds.foldl (fun b kv => b.addHeader kv.1 kv.2) b).request = r at *
  have hser : r.serialize (BufWriter.new c d) = .ok o := by rw [← hr]; exact hsend
  have huri : r.uri = requestTarget { u with query := none } := by
    rw [k2, v1]; unfold requestTarget; dsimp only; rw [List.append_nil]
  rw [← huri] at htarget ⊢
  obtain ⟨e1, e2⟩ := C18_serialized r d k3 o hser
  rw [k1] at e1 e2
  obtain ⟨m1, m2, m3⟩ := sent_request hlen hp hcomp
  have hd' : sent d = [] := hd
  rw [hd', List.nil_append] at e1
  obtain ⟨after, w1, w2⟩ : ∃ after : Bytes, wire d1 = requestHead m r.uri r.headers.entries ++ after ∧
      (Carries m → ∃ chs, ChunksFor chs (written cs) ∧ after = chunkedBytes chs b!"0" ++ b!"\r\n") := by
    cases o with
    | NoBody t =>
      obtain ⟨q1, _⟩ := m2 t rfl
      refine ⟨[], ?_, ?_⟩
      · rw [m1, q1, show sent t = outgoingSent (.NoBody (c := c) t) from rfl, e1, List.append_nil]
      · intro hm; obtain ⟨_, hx⟩ := e2.2 hm; simp at hx
    | WithBody ob =>
      obtain ⟨chs, q1, q2⟩ := m3 ob rfl
      refine ⟨chunkedBytes chs b!"0" ++ b!"\r\n", ?_, fun _ => ⟨chs, q1, rfl⟩⟩
      rw [m1, q2, show sent ob.socket = outgoingSent (.WithBody ob) from rfl, e1, List.append_assoc]
  have hs' : trace s = (requestHead m r.uri r.headers.entries).map .byte ++ (after.map .byte ++ rest) := by
    rw [hs, show wire d1.wr = wire d1 from rfl, w1, List.map_append, List.append_assoc]
  have hdel : Delivers c' (trace s) (requestHead m r.uri r.headers.entries) (after.map .byte ++ rest) := by
    rw [hs']; exact delivers_map c' _ _
  obtain ⟨rq, s1, f1, f2, f3, _, _, f4, f5, f6⟩ :=
    C18_roundtrip c' (BufReader.new c' s) m r.uri r.headers _ htarget k4 k5 (by rwa [BufReader.trace_new])
  refine ⟨rq, s1, f1, f2, f3, ?_, ?_⟩
  · intro hm hf
    rw [f2] at hm
    have := k6 (by unfold Carries; rcases hm with rfl | rfl <;> simp)
    rw [hf] at f4
    cases f4 with
    | tilClose h1 => exact h1 this
  · intro hm
    have hcar : Carries m := by unfold Carries; rcases hm with rfl | rfl <;> simp
    obtain ⟨chs, q1, q2⟩ := w2 hcar
    have hfr := framedBy_unique k4.1 f4 (.chunked (k6 hcar))
    obtain ⟨_, enc, len, hnew⟩ := request_under f1
    have hbody : rq.body = HttpBody.new c' (some b!"chunked") len s1 := by
      rw [hnew] at hfr ⊢
      unfold HttpBody.new at hfr ⊢
      by_cases henc : enc = some b!"chunked"
      · rw [henc]
      · rw [if_neg henc] at hfr
        cases len <;> simp [framing] at hfr
    rw [hbody, ← chunkedData_for q1]
    refine trace_of_yields (decode_sized c' len s1 chs b!"0" (b!"\r\n".map Ev.byte ++ rest) (fun ch h => (q1.1 ch h).1)
      (.inl (.one (.dec 0 (by omega) (by omega)))) ?_).1
    rw [f6, q2, List.map_append, List.append_assoc]
    exact deliversChunked_map c' chs b!"0" _

/-! ### C194 -/

omit [ZeroReader ρ] in
/-- The bytes of a request that the client has sent ask the server for just this call, however the connection ends after them. -/
theorem C194_asks (d d1 : Duplex ρ σ) (hd : sent d.wr = []) (u : Url) (host : Bytes) (m : HttpMethod)
    (b : HttpRequestBuilder c) (hb : HttpRequestBuilder.new c (HttpUrl.tryFrom u) m = .ok b) (hhost : u.host = some host)
    (htext : IsText host ∧ ¬ HasCrLf host) (htarget : SendableTarget (requestTarget { u with query := none }))
    (adds : List (Bytes × Bytes)) (ha : ∀ kv ∈ adds, Addable kv)
    (o o' : OutgoingRequest c (Duplex ρ σ)) (hsend : (adds.foldl (fun b kv => b.addHeader kv.1 kv.2) b).send d = .ok o)
    (cs : List WCall) (hlen : ∀ buf ∈ written cs, buf.length < 2 ^ 64) (hp : perform o cs = (true, o'))
    (hcomp : o'.complete = .ok d1) (stop : Option Err) (hf : Final c' stop) (q : Asked) :
    AsksFor c' stop (wire d1.wr) q ↔ RemoteCall.Asks ⟨m, requestTarget { u with query := none }, (written cs).flatten⟩ q := by
  have ht := stoppedConn_trace (wire d1.wr) stop
  obtain ⟨rq, s1, f1, f2, f3, f4, f5⟩ := wire_read (c' := c') d d1 hd u host m b hb hhost htext htarget adds ha o o' hsend cs hlen hp hcomp
    (stoppedConn (wire d1.wr) stop) (endEvents stop) ht
  have asks : ∀ q, AsksFor c' stop (wire d1.wr) q →
      RemoteCall.Asks ⟨m, requestTarget { u with query := none }, (written cs).flatten⟩ q := by
    intro q hq
    cases hq with
    | cut hc =>
      have := (C11_request_panics_iff c' (BufReader.new c' (stoppedConn (wire d1.wr) stop))).2 (by rw [BufReader.trace_new, ht]; exact hc)
      rw [f1] at this; simp at this
    | malformed he =>
      have := (C188_request c' (BufReader.new c' (stoppedConn (wire d1.wr) stop)) _).2 (by rw [BufReader.trace_new, ht]; exact he)
      rw [f1] at this; simp at this
    | noLength hq hm hn =>
      obtain ⟨r, s1', g1, g2, g3, g4, g5⟩ := requests_read hf hq _ ht
      rw [f1] at g1
      simp only [Prod.mk.injEq, Res.ok.injEq] at g1
      obtain ⟨rfl, rfl⟩ := g1
      exact absurd (g4.1 hn) (f4 (by rw [g2]; exact hm))
    | plain hq hm =>
      obtain ⟨r, s1', g1, g2, g3, g4, g5⟩ := requests_read hf hq _ ht
      rw [f1] at g1
      simp only [Prod.mk.injEq, Res.ok.injEq] at g1
      obtain ⟨rfl, rfl⟩ := g1
      rw [f2] at g2; rw [f3] at g3
      subst g2; subst g3
      exact ⟨fun h => absurd h.symm hm, fun _ => rfl⟩
    | upload hq hm hc =>
      obtain ⟨r, s1', g1, g2, g3, g4, g5⟩ := requests_read hf hq _ ht
      rw [f1] at g1
      simp only [Prod.mk.injEq, Res.ok.injEq] at g1
      obtain ⟨rfl, rfl⟩ := g1
      rw [f2] at g2; rw [f3] at g3
      subst g2; subst g3
      have h1 := f5 hm.symm
      rw [g5 _ _ hc] at h1
      obtain ⟨rfl, rfl⟩ := endEvents_split (q := none) (h1.trans (by rw [endEvents, List.append_nil]))
      exact ⟨fun _ => rfl, fun h => absurd hm.symm h⟩
  refine ⟨asks q, fun h => ?_⟩
  obtain ⟨q', hq'⟩ := C192_total c' stop (wire d1.wr)
  have h' := asks q' hq'
  have : q = q' := by
    by_cases hm : Hands m
    · rw [h.1 hm, h'.1 hm]
    · rw [h.2 hm, h'.2 hm]
  rw [this]; exact hq'

omit [CaseMap] in
theorem done_total {κ : Type} (S : Service κ) (k : κ) (x : RemoteCall) : ∃ y, CallDone S k x y := by
  by_cases h : Hands x.method
  · exact ⟨_, .handed h⟩
  · exact ⟨_, .plain h⟩

omit [CaseMap] in
theorem done_unique {κ : Type} {S : Service κ} {k : κ} {x : RemoteCall} {y y' : Res Unit × Bytes × κ} (h : CallDone S k x y) (h' : CallDone S k x y') :
    y = y' := by
  cases h <;> cases h' <;> first | rfl | contradiction

omit [CaseMap] in
/-- Every sequence of calls comes to one thing. -/
theorem C194_settled {κ : Type} (S : Service κ) (k : κ) (xs : List RemoteCall) :
    (∃ outs k', CallsDone S k xs outs k') ∧
      ∀ outs k' outs' k'', CallsDone S k xs outs k' → CallsDone S k xs outs' k'' → outs = outs' ∧ k' = k'' := by
  induction xs generalizing k with
  | nil => exact ⟨⟨_, _, .nil⟩, fun _ _ _ _ h h' => by cases h; cases h'; exact ⟨rfl, rfl⟩⟩
  | cons x xs ih =>
    obtain ⟨⟨res, out, k1⟩, h1⟩ := done_total S k x
    constructor
    · by_cases hr : res = .panic
      · subst hr; exact ⟨_, _, .panic h1⟩
      · obtain ⟨outs, k', h2⟩ := (ih k1).1
        exact ⟨_, _, .next h1 hr h2⟩
    · intro outs k' outs' k'' h h'
      cases h with
      | panic a =>
        cases h' with
        | panic b =>
          have := done_unique a b
          simp only [Prod.mk.injEq, true_and] at this
          obtain ⟨rfl, rfl⟩ := this
          exact ⟨rfl, rfl⟩
        | next b b2 _ => have := done_unique a b; simp only [Prod.mk.injEq] at this; exact absurd this.1.symm b2
      | next a a2 a3 =>
        cases h' with
        | panic b => have := done_unique a b; simp only [Prod.mk.injEq] at this; exact absurd this.1 a2
        | next b b2 b3 =>
          have := done_unique a b
          simp only [Prod.mk.injEq] at this
          obtain ⟨rfl, rfl, rfl⟩ := this
          obtain ⟨rfl, rfl⟩ := (ih _).2 _ _ _ _ a3 b3
          exact ⟨rfl, rfl⟩

/-- What such bytes make the server do is what the call does. -/
theorem done_serves {κ : Type} {S : Service κ} {k : κ} {x : RemoteCall} {y : Res Unit × Bytes × κ} (h : CallDone S k x y) {stop : Option Err}
    {bytes : Bytes} (hq : ∀ q, AsksFor c' stop bytes q ↔ x.Asks q) (errText : Err → Bytes) : ServesOne c' errText S k stop bytes y := by
  cases h with
  | handed hm => exact .upload ((hq _).2 ⟨fun _ => rfl, fun h => absurd hm h⟩)
  | plain hm => exact .plain ((hq _).2 ⟨fun h => absurd h hm, fun _ => rfl⟩)

/-- One call over the network, there and back: the server does what the service is to do, and what the client gets is what the rules
make of the bytes that the service sends. -/
theorem C194_call {η τ ρ' ε κ : Type} [LawfulReader τ] [ZeroReader τ] [LawfulWriter τ] [LawfulReader ρ'] [ZeroReader ρ']
    {Q : τ → Prop} (hra : ReadsApart τ) (hrel : Reliable c' Q) (hkept : ∀ s n, Q s → Q (read s n).2)
    (h : Handler c' η τ ρ' ε) (ho : OnlyReads h) (stands : η → κ → Prop) (S : Service κ) (hS : Provides h stands S) (errText : Err → Bytes)
    (d d1 : Duplex ρ σ) (hd : sent d.wr = []) (u : Url) (host : Bytes) (m : HttpMethod)
    (b : HttpRequestBuilder c) (hb : HttpRequestBuilder.new c (HttpUrl.tryFrom u) m = .ok b) (hhost : u.host = some host)
    (htext : IsText host ∧ ¬ HasCrLf host) (htarget : SendableTarget (requestTarget { u with query := none }))
    (adds : List (Bytes × Bytes)) (ha : ∀ kv ∈ adds, Addable kv)
    (o o' : OutgoingRequest c (Duplex ρ σ)) (hsend : (adds.foldl (fun b kv => b.addHeader kv.1 kv.2) b).send d = .ok o)
    (cs : List WCall) (hlen : ∀ buf ∈ written cs, buf.length < 2 ^ 64) (hp : perform o cs = (true, o'))
    (hcomp : o'.complete = .ok d1) (stop : Option Err) (hf : Final c' stop) (hlr : stop ≠ some .lengthRequired)
    (s : τ) (hs : Q s) (hs0 : sent s = []) (ht : trace s = (wire d1.wr).map .byte ++ endEvents stop) (self : η) (k : κ) (hk : stands self k)
    (res : Res Unit) (out : Bytes) (k' : κ)
    (hdone : CallDone S k ⟨m, requestTarget { u with query := none }, (written cs).flatten⟩ (res, out, k')) :
    ∃ s' self', h.serveOne errText (.ok s) self = (res, some s', self') ∧ stands self' k' ∧ sent s' = out ∧
      ∀ back, Final c back → trace d.rd = (sent s').map .byte ++ endEvents back → ∀ g, GotFrom c back out g → GotIs o'.finish.1 g := by
  obtain ⟨s', self', h1, h2, h3⟩ := servesOne_serves hra hrel hkept ho hS errText s self k hk hs hf hlr ht
    (done_serves hdone (C194_asks d d1 hd u host m b hb hhost htext htarget adds ha o o' hsend cs hlen hp hcomp stop hf) errText)
  dsimp only at h2
  rw [hs0, List.nil_append] at h2
  refine ⟨s', self', h1, h3, h2, fun back hback htr g hg => ?_⟩
  have hk := duplex_kept (σ := σ) d.rd
  have k1 : (fun d' : Duplex ρ σ => d'.rd = d.rd) d1 := by
    have a1 := hk.serialize (r := (adds.foldl (fun b kv => b.addHeader kv.1 kv.2) b).request) (s := d) (c := c) rfl
    rw [show (adds.foldl (fun b kv => b.addHeader kv.1 kv.2) b).request.serialize (BufWriter.new c d) = .ok o from hsend] at a1
    have a2 := hk.outgoing.perform (cs := cs) a1
    rw [hp] at a2
    have a3 := hk.complete a2
    rw [hcomp] at a3
    exact a3
  have hfin : o'.finish = HttpResponse.deserialize c d1 := by unfold OutgoingRequest.finish; rw [hcomp]
  rw [hfin]
  exact (gotFrom_read hback hg d1 (by rw [Duplex.trace_eq, k1, htr, h2])).is

/-- Call after call, each over a connection of its own: the server has done what the service does when it is called itself, and has sent
on each connection what the service says. -/
theorem C194_calls {η τ ρ' ε κ : Type} [LawfulReader τ] [ZeroReader τ] [LawfulWriter τ] [LawfulReader ρ'] [ZeroReader ρ']
    {Q : τ → Prop} (hra : ReadsApart τ) (hrel : Reliable c' Q) (hkept : ∀ s n, Q s → Q (read s n).2)
    (h : Handler c' η τ ρ' ε) (ho : OnlyReads h) (stands : η → κ → Prop) (S : Service κ) (hS : Provides h stands S) (errText : Err → Bytes)
    (calls : List (RemoteCall × τ × Bytes × Option Err))
    (hcalls : ∀ x s bytes stop, (x, s, bytes, stop) ∈ calls → (∀ q, AsksFor c' stop bytes q ↔ x.Asks q) ∧ Q s ∧ sent s = [] ∧
      Final c' stop ∧ stop ≠ some .lengthRequired ∧ trace s = bytes.map .byte ++ endEvents stop) (self : η) (k : κ) (hk : stands self k)
    (outs : List (Res Unit × Bytes)) (k' : κ) (hdone : CallsDone S k (calls.map (·.1)) outs k') :
    (h.serveForever errText (calls.map fun x => .ok x.2.1) self).1.map (fun x => (x.1, x.2.map sent)) = outs.map (fun x => (x.1, some x.2)) ∧
      stands (h.serveForever errText (calls.map fun x => .ok x.2.1) self).2 k' := by
  have hall : ServesAll c' errText S k (calls.map fun x => .ok x.2.2) (outs.map fun x => (x.1, some x.2)) k' := by
    clear hk
    induction calls generalizing k outs with
    | nil => cases hdone; exact .nil
    | cons x calls ih =>
      obtain ⟨x, s, bytes, stop⟩ := x
      have ih := ih fun x s b st hx => hcalls x s b st (by simp [hx])
      have hq := (hcalls x s bytes stop (by simp)).1
      rw [List.map_cons] at hdone
      cases hdone with
      | panic h1 => exact .panic (done_serves h1 hq errText)
      | next h1 h2 h3 => exact .next (done_serves h1 hq errText) h2 (ih _ _ h3)
  have := C193_forever hra hrel hkept h ho stands S hS errText (calls.map fun x => .ok x.2) (by
    intro s input stop hx
    simp only [List.mem_map, Except.ok.injEq] at hx
    obtain ⟨y, hy, he⟩ := hx
    obtain ⟨x, s', b', st'⟩ := y
    simp only [Prod.mk.injEq] at he
    obtain ⟨rfl, rfl, rfl⟩ := he
    exact (hcalls _ _ _ _ hy).2) self k hk _ k' (by rw [List.map_map]; exact hall)
  rw [List.map_map] at this
  exact this

end

/-- Witness for `C194_asks`, `C194_call` and `C194_settled`: a PUT in two writes with an added header, to the server that keeps a text, which
is on any I/O layer; what it answers, the client gets. -/
example (c c' : Cfg) : let _ := asciiCase
    let answer := b!"HTTP/1.1 201 Created\r\n\r\n"
    let d : Duplex Wire Sink := ⟨⟨[.data answer]⟩, ⟨[], 0, [.accept 3, .accept 1]⟩⟩
    ∃ b o o' d1, HttpRequestBuilder.new c (HttpUrl.tryFrom sampleUrl) .Put = .ok b ∧ (b.addHeader b!"X-A" b!"1").send d = .ok o ∧
      perform o [.write b!"ab", .flush, .write [], .write b!"c"] = (true, o') ∧ o'.complete = .ok d1 ∧
      (∀ q, AsksFor c' none (wire d1.wr) q ↔ q = .upload .Put sampleUrl.path b!"abc" none) ∧
      ∃ s', (storeHandler c').serveOne (fun _ => []) (.ok (stoppedConn (wire d1.wr) none)) b!"old" = (.ok (), some s', b!"abc") ∧
        sent s' = answer ∧ ∃ g, GotFrom c none answer g ∧ GotIs o'.finish.1 g := by
  intro inst answer d
  have hfin : ∀ c : Cfg, Final c none := by intro c e h; simp at h
  have hadd : ∀ kv ∈ [(b!"X-A", b!"1")], Addable kv := by
    intro kv hkv
    rw [List.mem_singleton] at hkv
    subst hkv
    exact ⟨⟨isText_ascii (by decide), by decide, by unfold HasCrLf; decide, by rw [← startsBlank_iff]; decide,
      isText_ascii (by decide), by unfold HasCrLf; decide⟩, by decide +kernel, fun h => absurd h (by decide +kernel)⟩
  have hlen : ∀ buf ∈ written [.write b!"ab", .flush, .write [], .write b!"c"], buf.length < 2 ^ 64 := by decide
  obtain ⟨b, o, o', d1, h1, h2, h3, h4⟩ := C55_sending (sink_reliable c) d
    (by intro a ha; change a ∈ [WPlan.accept 3, WPlan.accept 1] at ha
        simp only [List.mem_cons, List.not_mem_nil, or_false] at ha
        rcases ha with rfl | rfl
        · exact .inl ⟨2, rfl⟩
        · exact .inl ⟨0, rfl⟩) sampleUrl b!"h" .Put sampleUrl_askable.ascii
    sampleUrl_askable.scheme rfl [(b!"X-A", b!"1")] [.write b!"ab", .flush, .write [], .write b!"c"] (.inl (by simp [Carries]))
  have htext : IsText b!"h" ∧ ¬ HasCrLf b!"h" := ⟨isText_ascii (by decide), by unfold HasCrLf; decide⟩
  have htarget : SendableTarget (requestTarget { sampleUrl with query := none }) :=
    ⟨by decide, isText_ascii (by decide), by decide, by decide, by unfold HasCrLf; decide⟩
  have htgt : requestTarget { sampleUrl with query := none } = sampleUrl.path := by decide
  refine ⟨b, o, o', d1, h1, h2, h3, h4, fun q => ?_, ?_⟩
  · rw [C194_asks d d1 rfl sampleUrl b!"h" .Put b h1 rfl htext htarget _ hadd o o' h2 _ hlen h3 h4 none (hfin c') q, htgt]
    exact ⟨fun h => h.1 (.inr rfl), fun h => ⟨fun _ => h, fun hn => absurd (.inr rfl) hn⟩⟩
  · obtain ⟨s', self', g1, g2, g4, g3⟩ := C194_call duplex_readsApart (duplex_reliable (σ := Sink) (sink_reliable c')) (fun _ _ h => h) (storeHandler c')
      (storeHandler_reads c') Eq storeService (storeHandler_provides c') (fun _ => []) d d1 rfl sampleUrl b!"h" .Put b h1 rfl htext htarget _ hadd
      o o' h2 _ hlen h3 h4 none (hfin c') (by simp) (stoppedConn (wire d1.wr) none) (by simp [stoppedConn]) rfl (stoppedConn_trace _ _)
      b!"old" b!"old" rfl _ _ _ (.handed (.inr rfl))
    subst g2
    have hs : sent s' = answer := by
      rw [show answer = responseHead (utf8 "201 Created") [] by decide +kernel]; exact g4
    refine ⟨s', g1, hs, ?_⟩
    obtain ⟨g, hg⟩ := C191_total c none (hfin c) answer
    refine ⟨g, hg, g3 none (hfin c) (by rw [hs, endEvents, List.append_nil]; rfl) g ?_⟩
    rwa [show answer = responseHead (utf8 "201 Created") [] by decide +kernel] at hg

/-- Witness for `C194_calls` and `C194_settled`: what is put is got. -/
example (c' : Cfg) : let _ := asciiCase
    let put := b!"PUT /p HTTP/1.1\r\nTransfer-Encoding: chunked\r\n\r\n2\r\nab\r\n0\r\n\r\n"
    let get := b!"GET /p HTTP/1.1\r\n\r\n"
    let calls : List RemoteCall := [⟨.Put, b!"/p", b!"ab"⟩, ⟨.Get, b!"/p", []⟩]
    CallsDone storeService [] calls [(.ok (), responseHead (utf8 "201 Created") []), (.ok (), responseHead (utf8 "200 OK") [] ++ b!"ab")] b!"ab" ∧
    ((storeHandler c').serveForever (fun _ => []) [.ok (requestConn put), .ok (requestConn get)] []).1.map (fun x => (x.1, x.2.map sent)) =
      [(.ok (), some b!"HTTP/1.1 201 Created\r\n\r\n"), (.ok (), some b!"HTTP/1.1 200 OK\r\n\r\nab")] ∧
    ((storeHandler c').serveForever (fun _ => []) [.ok (requestConn put), .ok (requestConn get)] []).2 = b!"ab" := by
  intro _ put get calls
  refine ⟨.next (.handed (.inr rfl)) (by simp) (.next (.plain (by simp [Hands])) (by simp) .nil), ?_, ?_⟩ <;>
    rcases c' with ⟨_ | _⟩ <;> decide +kernel

end HttpIo
