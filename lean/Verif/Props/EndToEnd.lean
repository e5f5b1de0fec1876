import Verif.Spec.EndToEnd
import Verif.Props.Server
import Verif.Props.Client
import Verif.Lemmas.Peer

/-! C55: a client and a server connected to each other. -/

namespace HttpIo
open Spec

section
variable [CaseMap]

/-- The headers of a request made by the builder, whatever is added. -/
theorem built_headers {c : Cfg} {v : HttpUrl} {m : HttpMethod} {b : HttpRequestBuilder c}
    (hb : HttpRequestBuilder.new c (.ok v) m = .ok b) (hhost : IsText v.host ∧ ¬ HasCrLf v.host) (adds : List (Bytes × Bytes))
    (ha : ∀ kv ∈ adds, Addable kv) :
    let r := (adds.foldl (fun b kv => b.addHeader kv.1 kv.2) b).request
    r.method = m ∧ r.uri = (if v.url.path = [] then b!"/" else v.url.path) ∧ r.version = ⟨1, 1⟩ ∧
    SendableHeaders r.headers.entries ∧ LengthOk r.headers.entries ∧
    (Carries m → (b!"transfer-encoding", b!"chunked") ∈ r.headers.entries) := by
  obtain ⟨b', h1, h2, h3, h4, h5⟩ := HttpRequestBuilder.new_ok c v m
  rw [hb, Res.ok.injEq] at h1
  subst h1
  have hte : utf8 "transfer-encoding" = b!"transfer-encoding" := by decide +kernel
  have hcl : utf8 "content-length" = b!"content-length" := by decide +kernel
  have hlow : ∀ s : Bytes, isAscii s = true → s.map asciiLowerByte = s → CaseMap.lower s = s := fun s h1 h2 => by
    rw [CaseMap.lower_ascii s h1, h2]
  have plain : ∀ k w : Bytes, isAscii k = true → (58 : UInt8) ∉ k → ¬ HasCrLf k → ¬ StartsBlank k → IsText w → ¬ HasCrLf w →
      SendableHeader (k, w) := fun k w h1 h2 h3 h4 h5 h6 => ⟨isText_ascii h1, h2, h3, h4, h5, h6⟩
  have hsort : SortedNames b.request.headers.entries := by
    rw [h5]; unfold standardHeaders SortedNames
    split <;> simp <;> decide
  have base : SendableHeaders b.request.headers.entries ∧ LengthOk b.request.headers.entries ∧
      (Carries m → b.request.headers.get b!"transfer-encoding" = some b!"chunked") := by
    have s1 : SendableHeader (b!"accept", b!"*/*") := plain _ _ (by decide) (by decide) (by unfold HasCrLf; decide)
      (by rw [← startsBlank_iff]; decide) (isText_ascii (by decide)) (by unfold HasCrLf; decide)
    have s2 : SendableHeader (b!"host", v.host) := plain _ _ (by decide) (by decide) (by unfold HasCrLf; decide)
      (by rw [← startsBlank_iff]; decide) hhost.1 hhost.2
    have s3 : SendableHeader (b!"transfer-encoding", b!"chunked") := plain _ _ (by decide) (by decide) (by unfold HasCrLf; decide)
      (by rw [← startsBlank_iff]; decide) (isText_ascii (by decide)) (by unfold HasCrLf; decide)
    have s4 : SendableHeader (b!"user-agent", b!"http_io") := plain _ _ (by decide) (by decide) (by unfold HasCrLf; decide)
      (by rw [← startsBlank_iff]; decide) (isText_ascii (by decide)) (by unfold HasCrLf; decide)
    have l1 := hlow b!"accept" (by decide) (by decide)
    have l2 := hlow b!"host" (by decide) (by decide)
    have l3 := hlow b!"transfer-encoding" (by decide) (by decide)
    have l4 := hlow b!"user-agent" (by decide) (by decide)
    refine ⟨⟨hsort, ?_, ?_⟩, ?_, ?_⟩
    · rw [h5]; unfold standardHeaders
      split <;> simp [l1, l2, l3, l4]
    · rw [h5]; unfold standardHeaders
      split <;> simp only [List.mem_cons, List.not_mem_nil, or_false] <;> rintro kv (rfl | rfl | rfl | rfl) <;> assumption
    · rw [h5]; unfold standardHeaders
      intro w hw
      exfalso
      revert hw
      split <;> simp only [List.mem_cons, List.not_mem_nil, or_false, Prod.mk.injEq] <;> rintro (h | h | h | h) <;>
        exact absurd h.1 (by decide)
    · intro hm
      unfold HttpHeaders.get
      rw [l3, mapGet_iff hsort, h5]
      unfold standardHeaders
      unfold Carries at hm
      rw [if_pos hm]
      simp
  have key : ∀ (l : List (Bytes × Bytes)) (b : HttpRequestBuilder c), (∀ kv ∈ l, Addable kv) →
      SendableHeaders b.request.headers.entries ∧ LengthOk b.request.headers.entries ∧
        (Carries m → b.request.headers.get b!"transfer-encoding" = some b!"chunked") →
      let r := (l.foldl (fun b kv => b.addHeader kv.1 kv.2) b).request
      r.method = b.request.method ∧ r.uri = b.request.uri ∧ r.version = b.request.version ∧
      SendableHeaders r.headers.entries ∧ LengthOk r.headers.entries ∧
        (Carries m → r.headers.get b!"transfer-encoding" = some b!"chunked") := by
    intro l
    induction l with
    | nil => intro b _ hb; exact ⟨rfl, rfl, rfl, hb⟩
    | cons kv l ih =>
      intro b hl hb
      have hkv := hl kv (List.mem_cons_self)
      have hent : (b.addHeader kv.1 kv.2).request.headers = b.request.headers.insert kv.1 kv.2 := rfl
      have := ih (b.addHeader kv.1 kv.2) (fun kv' h => hl kv' (List.mem_cons_of_mem _ h)) ?_
      · exact this
      · rw [hent]
        refine ⟨⟨mapInsert_sorted hb.1.1, ?_, ?_⟩, ?_, ?_⟩
        · intro kv' hmem
          rcases mapInsert_mem hmem with rfl | hmem
          · exact CaseMap.lower_idem kv.1
          · exact hb.1.2.1 kv' hmem
        · intro kv' hmem
          rcases mapInsert_mem hmem with rfl | hmem
          · exact hkv.sendable
          · exact hb.1.2.2 kv' hmem
        · intro w hw
          rcases mapInsert_mem hw with h | hmem
          · simp only [Prod.mk.injEq] at h
            rw [h.2]; exact hkv.length (by rw [hcl]; exact h.1.symm)
          · exact hb.2.1 w hmem
        · intro hm
          rw [C12_insert, if_neg, hb.2.2 hm]
          rw [hlow b!"transfer-encoding" (by decide) (by decide)]
          exact fun h => hkv.coding (by rw [hte]; exact h.symm)
  obtain ⟨k1, k2, k3, k4, k5, k6⟩ := key adds b ha base
  refine ⟨by rw [k1, h2], by rw [k2, h3], by rw [k3, h4], k4, k5, fun hm => ?_⟩
  have := k6 hm
  unfold HttpHeaders.get at this
  rw [hlow b!"transfer-encoding" (by decide) (by decide), mapGet_iff k4.1] at this
  exact this

end

section
variable [CaseMap] {c : Cfg} {ρ σ : Type} [LawfulReader ρ] [LawfulWriter σ]

/-- Over a transport that does not fail, a request to any http URL with any added headers and any body can be sent. -/
theorem C55_sending {P : σ → Prop} (hr : Reliable c P) (d : Duplex ρ σ) (hP : P d.wr) (u : Url) (host : Bytes) (m : HttpMethod)
    (hs : AsciiText u.scheme) (hu : PlainHttp u ∨ SecureHttp u) (hhost : u.host = some host)
    (adds : List (Bytes × Bytes)) (cs : List WCall) (hcs : Carries m ∨ written cs = []) :
    ∃ b o o' d1, HttpRequestBuilder.new c (HttpUrl.tryFrom u) m = .ok b ∧
      (adds.foldl (fun b kv => b.addHeader kv.1 kv.2) b).send d = .ok o ∧ perform o cs = (true, o') ∧ o'.complete = .ok d1 := by
  obtain ⟨sch, h1, _⟩ := HttpUrl.tryFrom_ok hs hu hhost
  obtain ⟨b, h2, h3, _, h4, _⟩ := HttpRequestBuilder.new_ok c ⟨u, sch, host⟩ m
  obtain ⟨a1, _, a3, _⟩ := C37_added c b adds
  generalize hb : adds.foldl (fun b kv => b.addHeader kv.1 kv.2) b = b' at a1 a3
  have hr' := duplex_reliable (ρ := ρ) hr
  obtain ⟨o, g1, g2⟩ := hr'.serialize_ok b'.request (s := d) hP
  obtain ⟨o', g3, g4⟩ : ∃ o', perform o cs = (true, o') ∧ P o'.socketOf.wr := by
    cases o with
    | WithBody ob =>
      obtain ⟨b', g3, g4⟩ := hr'.perform_ok (b := ob) (cs := cs) g2
      exact ⟨.WithBody b', by rw [perform_withBody, g3], g4⟩
    | NoBody t =>
      have hw : written cs = [] := by
        rcases hcs with hm | hw
        · obtain ⟨ob, hob⟩ := (C18_serialized b'.request d (by rw [a3, h4]) _ g1).2.2 (by rw [a1, h3]; exact hm)
          simp at hob
        · exact hw
      obtain ⟨f1, f2⟩ := perform_noBody (c := c) t cs
      exact ⟨.NoBody t, Prod.ext (f2.2 hw) f1, g2⟩
  obtain ⟨d1, g5, _⟩ := hr'.complete_ok g4
  exact ⟨b, o, o', d1, by rw [h1]; exact h2, by rw [hb]; exact g1, g3, g5⟩

end

section
variable [CaseMap] {c c' : Cfg} {ρ σ : Type} [LawfulReader ρ] [ZeroReader ρ] [LawfulWriter σ]
  {η τ ρ' ε : Type} [LawfulReader τ] [ZeroReader τ] [LawfulWriter τ] [LawfulReader ρ'] [ZeroReader ρ']

/-- What a response's head and body, sent one after the other on a connection that is then closed, is for a client. -/
theorem response_closed {ρ : Type} [LawfulReader ρ] [ZeroReader ρ] (d : ρ) (status : HttpStatus) (headers : HttpHeaders) (bs : Bytes)
    (hh : SendableHeaders headers.entries) (hl : LengthOk headers.entries)
    (hc : (b!"transfer-encoding", b!"chunked") ∉ headers.entries)
    (hd : trace d = (responseHead status.display headers.entries ++ bs).map .byte) :
    ∃ r d', HttpResponse.deserialize c d = (.ok r, d') ∧ r.status = HttpStatus.fromCode status.toCode ∧ r.headers = headers ∧
      ((∀ v, (b!"content-length", v) ∉ headers.entries) → Yields r.body bs) ∧
      (∀ v n, (b!"content-length", v) ∈ headers.entries → LengthText v n → Yields r.body (bs.take n)) := by
  have hdel : Delivers c (trace d) (responseHead status.display headers.entries) (bs.map .byte) := by
    rw [hd, List.map_append]; exact delivers_map c _ _
  obtain ⟨r, s', f1, f2, _, f3, f4, f5, f6⟩ := response_delivered c d status headers _ hh hl hdel
  obtain ⟨_, enc, len, hnew⟩ := response_under f1
  have hne : enc ≠ some b!"chunked" := by
    rintro rfl
    rw [hnew, show framing (HttpBody.new c (some b!"chunked") len (BufReader.new c s')) = .chunked by
      unfold HttpBody.new; rw [if_pos rfl]; rfl] at f4
    cases f4 with
    | chunked h => exact hc h
  have htr : trace (BufReader.new c s') = bs.map .byte ++ [] := by rw [BufReader.trace_new, f6, List.append_nil]
  refine ⟨r, s', f1, f2, f3, ?_, ?_⟩
  · intro hno
    have h := framedBy_unique hh.1 f4 (.tilClose hc hno)
    rw [hnew] at h ⊢
    unfold HttpBody.new at h ⊢
    rw [if_neg hne] at h ⊢
    cases len with
    | some n => simp [framing] at h
    | none =>
      apply yields_of_trace
      rw [List.append_nil] at htr
      exact htr
  · intro v n hv hn
    have h := framedBy_unique hh.1 f4 (.limited hc hv hn)
    have hlen : len = some n := by
      rw [hnew] at h
      unfold HttpBody.new at h
      rw [if_neg hne] at h
      cases len with
      | none => simp [framing] at h
      | some k => simp only [framing, Framing.limited.injEq] at h; rw [h]
    rw [hnew, hlen]
    exact C29_yields c enc hne n _ bs [] htr (.inl rfl)

/-- The client half and the server half in between: a request as the client puts it on the wire, in any fragmentation and
followed by anything, makes the server call the handler's method for the request's method once, with the request's path;
and for POST and PUT the handler can read exactly what the client's caller wrote. -/
theorem C55_request (d d1 : Duplex ρ σ) (hd : sent d.wr = []) (u : Url) (host : Bytes) (m : HttpMethod)
    (b : HttpRequestBuilder c) (hb : HttpRequestBuilder.new c (HttpUrl.tryFrom u) m = .ok b) (hhost : u.host = some host)
    (htext : IsText host ∧ ¬ HasCrLf host) (htarget : SendableTarget (requestTarget { u with query := none }))
    (adds : List (Bytes × Bytes)) (ha : ∀ kv ∈ adds, Addable kv)
    (o o' : OutgoingRequest c (Duplex ρ σ)) (hsend : (adds.foldl (fun b kv => b.addHeader kv.1 kv.2) b).send d = .ok o)
    (cs : List WCall) (hlen : ∀ buf ∈ written cs, buf.length < 2 ^ 64) (hp : perform o cs = (true, o'))
    (hcomp : o'.complete = .ok d1)
    (h : Handler c' η τ ρ' ε) (errText : Err → Bytes) (self : η) (s : τ) (rest : List Ev)
    (hs : trace s = (wire d1.wr).map .byte ++ rest) :
    ((spied h).serveOne errText (.ok s) (self, [])).2.2.2 = [(m, requestTarget { u with query := none })] ∧
    ∃ body, (Hands m → Yields body (written cs).flatten) ∧
      (∀ r, AnswerIs h (handled h m (requestTarget { u with query := none }) body self).1 r →
        (h.serveOneInner errText s self).1 = .ok r ∨ (h.serveOneInner errText s self).1 = .err r) ∧
      (h.serveOneInner errText s self).2.2 = (handled h m (requestTarget { u with query := none }) body self).2.2 := by
  cases ht : HttpUrl.tryFrom u with
  | err e => rw [ht] at hb; simp [HttpRequestBuilder.new] at hb
  | panic => rw [ht] at hb; simp [HttpRequestBuilder.new] at hb
  | ok v =>
  rw [ht] at hb
  obtain ⟨v1, v2, _⟩ := HttpUrl.tryFrom_inv ht
  have hvh : v.host = host := by rw [hhost] at v2; simpa using v2.symm
  obtain ⟨k1, k2, k3, k4, k5, k6⟩ := built_headers hb (by rw [hvh]; exact htext) adds ha
  generalize hr : (adds.foldl (fun b kv => b.addHeader kv.1 kv.2) b).request = r at *
  have hser : r.serialize (BufWriter.new c d) = .ok o := by rw [← hr]; exact hsend
  have huri : r.uri = requestTarget { u with query := none } := by
    rw [k2, v1]; unfold requestTarget; dsimp only; rw [List.append_nil]
  rw [← huri] at htarget ⊢
  obtain ⟨e1, e2⟩ := C18_serialized r d k3 o hser
  rw [k1] at e1 e2
  obtain ⟨m1, m2, m3⟩ := sent_request hlen hp hcomp
  have hd' : sent d = [] := hd
  rw [hd', List.nil_append] at e1
  obtain ⟨after, w1, w2⟩ : ∃ after : Bytes, wire d1 = requestHead m r.uri r.headers.entries ++ after ∧
      (Carries m → ∃ chs, ChunksFor chs (written cs) ∧ after = chunkedBytes chs b!"0" ++ b!"\r\n") := by
    cases o with
    | NoBody t =>
      obtain ⟨q1, _⟩ := m2 t rfl
      refine ⟨[], ?_, ?_⟩
      · rw [m1, q1, show sent t = outgoingSent (.NoBody (c := c) t) from rfl, e1, List.append_nil]
      · intro hm; obtain ⟨_, hx⟩ := e2.2 hm; simp at hx
    | WithBody ob =>
      obtain ⟨chs, q1, q2⟩ := m3 ob rfl
      refine ⟨chunkedBytes chs b!"0" ++ b!"\r\n", ?_, fun _ => ⟨chs, q1, rfl⟩⟩
      rw [m1, q2, show sent ob.socket = outgoingSent (.WithBody ob) from rfl, e1, List.append_assoc]
  have hs' : trace s = (requestHead m r.uri r.headers.entries).map .byte ++ (after.map .byte ++ rest) := by
    rw [hs, show wire d1.wr = wire d1 from rfl, w1, List.map_append, List.append_assoc]
  have hdel : Delivers c' (trace s) (requestHead m r.uri r.headers.entries) (after.map .byte ++ rest) := by
    rw [hs']; exact delivers_map c' _ _
  refine ⟨(C50_wire h errText s self m r.uri r.headers _ htarget k4 k5 hdel).1 fun hm => .inl (k6 (by
    unfold Carries; rcases hm with rfl | rfl <;> simp)), ?_⟩
  obtain ⟨rq, s1, f1, f2, f3, _, _, f4, f5, f6⟩ :=
    C18_roundtrip c' (BufReader.new c' s) m r.uri r.headers _ htarget k4 k5 (by rwa [BufReader.trace_new])
  have hacc : Acceptable rq := by
    intro hm hf
    rw [f2] at hm
    have := k6 (by unfold Carries; rcases hm with rfl | rfl <;> simp)
    rw [hf] at f4
    cases f4 with
    | tilClose h1 => exact h1 this
  obtain ⟨g1, g2⟩ := C50_handed h errText s self rq s1 f1 hacc
  rw [f2, f3] at g1 g2
  refine ⟨rq.body, ?_, ?_, g2⟩
  · intro hm
    have hcar : Carries m := by unfold Carries; rcases hm with rfl | rfl <;> simp
    obtain ⟨chs, q1, q2⟩ := w2 hcar
    have hfr := framedBy_unique k4.1 f4 (.chunked (k6 hcar))
    obtain ⟨_, enc, len, hnew⟩ := request_under f1
    have hbody : rq.body = HttpBody.new c' (some b!"chunked") len s1 := by
      rw [hnew] at hfr ⊢
      unfold HttpBody.new at hfr ⊢
      by_cases henc : enc = some b!"chunked"
      · rw [henc]
      · rw [if_neg henc] at hfr
        cases len <;> simp [framing] at hfr
    rw [hbody, ← chunkedData_for q1]
    refine (decode_sized c' len s1 chs b!"0" (b!"\r\n".map Ev.byte ++ rest) (fun ch h => (q1.1 ch h).1)
      (.inl (.one (.dec 0 (by omega) (by omega)))) ?_).1
    rw [f6, q2, List.map_append, List.append_assoc]
    exact deliversChunked_map c' chs b!"0" _
  · rintro rs (hrs | ⟨e, hrs, rfl⟩) <;> rw [hrs] at g1
    · exact .inl g1
    · exact .inr g1

/-- The whole way there and back. The client is connected to the server by two byte streams that may fragment as they
like. The client sends a request; the server answers with `r`, which is what the handler gave it, and closes; the client
then gets the status, the headers and the body of `r`: all of it, or as much of it as `r` declares with a content length.
(The handler must not claim the chunked coding for a body it has not encoded.) -/
theorem C55_end_to_end {Q : τ → Prop} (hra : ReadsApart τ) (hrel : Reliable c' Q) (hkept : ∀ s n, Q s → Q (read s n).2)
    (d d1 : Duplex ρ σ) (hd : sent d.wr = []) (u : Url) (host : Bytes) (m : HttpMethod)
    (b : HttpRequestBuilder c) (hb : HttpRequestBuilder.new c (HttpUrl.tryFrom u) m = .ok b) (hhost : u.host = some host)
    (htext : IsText host ∧ ¬ HasCrLf host) (htarget : SendableTarget (requestTarget { u with query := none }))
    (adds : List (Bytes × Bytes)) (ha : ∀ kv ∈ adds, Addable kv)
    (o o' : OutgoingRequest c (Duplex ρ σ)) (hsend : (adds.foldl (fun b kv => b.addHeader kv.1 kv.2) b).send d = .ok o)
    (cs : List WCall) (hlen : ∀ buf ∈ written cs, buf.length < 2 ^ 64) (hp : perform o cs = (true, o'))
    (hcomp : o'.complete = .ok d1)
    (h : Handler c' η τ ρ' ε) (ho : OnlyReads h) (errText : Err → Bytes) (self : η) (s : τ) (rest : List Ev)
    (hQ : Q s) (hs0 : sent s = []) (hs : trace s = (wire d1.wr).map .byte ++ rest) :
    ∃ body, (Hands m → Yields body (written cs).flatten) ∧
      ∀ r, AnswerIs h (handled h m (requestTarget { u with query := none }) body self).1 r →
        r.version = ⟨1, 1⟩ → SendableHeaders r.headers.entries → LengthOk r.headers.entries →
        (utf8 "transfer-encoding", utf8 "chunked") ∉ r.headers.entries →
        ∀ bs t', Delivers c' (trace r.body) bs t' → Ended c' t' →
        (h.serveOne errText (.ok s) self).1 = .ok () ∧
        ∃ s', (h.serveOne errText (.ok s) self).2.1 = some s' ∧ (trace d.rd = (sent s').map .byte →
          ∃ r' d2, o'.finish = (.ok r', d2) ∧ r'.status.toCode = r.status.toCode ∧
            ((∀ n, r.status ≠ .Unknown n) → r'.status = r.status) ∧ r'.headers = r.headers ∧
            ((∀ v, (utf8 "content-length", v) ∉ r.headers.entries) → Yields r'.body bs) ∧
            (∀ v n, (utf8 "content-length", v) ∈ r.headers.entries → LengthText v n → Yields r'.body (bs.take n))) := by
  obtain ⟨_, body, h1, h2, _⟩ := C55_request d d1 hd u host m b hb hhost htext htarget adds ha o o' hsend cs hlen hp hcomp
    h errText self s rest hs
  refine ⟨body, h1, ?_⟩
  rw [show utf8 "transfer-encoding" = b!"transfer-encoding" by decide +kernel, show utf8 "chunked" = b!"chunked" by decide +kernel,
    show utf8 "content-length" = b!"content-length" by decide +kernel]
  intro r hr hv hh hl hc bs t' hdel hend
  obtain ⟨g1, s', g2, _, g3⟩ := serve_succeeds hra hrel hkept h ho errText s self hQ r (h2 r hr) hv bs t' hdel hend
  refine ⟨g1, s', g2, fun hback => ?_⟩
  have hk := duplex_kept (σ := σ) d.rd
  have k1 : (fun d' : Duplex ρ σ => d'.rd = d.rd) d1 := by
    have a1 := hk.serialize (r := (adds.foldl (fun b kv => b.addHeader kv.1 kv.2) b).request) (s := d) (c := c) rfl
    rw [show (adds.foldl (fun b kv => b.addHeader kv.1 kv.2) b).request.serialize (BufWriter.new c d) = .ok o from hsend] at a1
    have a2 := hk.outgoing.perform (cs := cs) a1
    rw [hp] at a2
    have a3 := hk.complete a2
    rw [hcomp] at a3
    exact a3
  have k2 : trace d1 = (responseHead r.status.display r.headers.entries ++ bs).map .byte := by
    rw [Duplex.trace_eq, k1, hback, g3, hs0, List.nil_append]
  obtain ⟨r', d2, e1, e2, e3, e4, e5⟩ := response_closed (c := c) d1 r.status r.headers bs hh hl hc k2
  refine ⟨r', d2, by unfold OutgoingRequest.finish; rw [hcomp]; exact e1, by rw [e2, C01_code_lossless], fun hn => ?_, e3, e4, e5⟩
  rw [e2]
  cases hst : r.status with
  | Unknown n => exact absurd hst (hn n)
  | _ => rfl

end

/-- Witness: a PUT with an added header and two writes by a client with `std`, to a server without `std` that runs the
sample handler; both sides take and deliver little at a time. The hypotheses hold, and the whole run is evaluated. -/
example : let _ := asciiCase
    let u : Url := ⟨b!"http", some b!"h", none, b!"/up", some b!"q", none, [], none⟩
    let d : Duplex Wire Sink := ⟨⟨[.data b!"HTTP/1.1 201 Cre", .data b!"ated\r\n\r\n"]⟩, ⟨[], 0, [.accept 3, .accept 1]⟩⟩
    let onWire := b!"PUT /up HTTP/1.1\r\naccept: */*\r\nhost: h\r\ntransfer-encoding: chunked\r\nuser-agent: http_io\r\nx-a: 1\r\n\r\n2\r\nab\r\n1\r\nc\r\n0\r\n\r\n"
    let s : Duplex Wire Sink := ⟨⟨[.data (onWire.take 7), .data (onWire.drop 7)]⟩, ⟨[], 0, [.accept 1]⟩⟩
    IsText b!"h" ∧ ¬ HasCrLf b!"h" ∧ SendableTarget (requestTarget { u with query := none }) ∧
    (∀ kv ∈ [(b!"X-A", b!"1")], Addable kv) ∧
    (match HttpRequestBuilder.new ⟨true⟩ (HttpUrl.tryFrom u) .Put with
      | .ok b =>
        match (b.addHeader b!"X-A" b!"1").send d with
        | .ok o =>
          match perform o [.write b!"ab", .flush, .write [], .write b!"c"] with
          | (true, o') =>
            match o'.complete, o'.finish with
            | .ok d1, (.ok r, _) => decide (wire d1.wr = onWire ∧ r.status = .Created ∧ r.headers.entries = [])
            | _, _ => false
          | _ => false
        | _ => false
      | _ => false) = true ∧
    ((spied (sampleHandler ⟨false⟩)).serveOne (fun _ => []) (.ok s) (0, [])).2.2.2 = [(.Put, b!"/up")] ∧
    (((sampleHandler ⟨false⟩).serveOne (fun _ => []) (.ok s) 0).2.1.map fun s' => (sent s').map Ev.byte) = some (trace d.rd) := by
  intro inst u d onWire s
  refine ⟨isText_ascii (by decide), by unfold HasCrLf; decide,
    ⟨by decide, isText_ascii (by decide), by decide, by decide, by unfold HasCrLf; decide⟩, ?_, by decide +kernel,
    by decide +kernel, by decide +kernel⟩
  intro kv hkv
  rw [List.mem_singleton] at hkv
  subst hkv
  exact ⟨⟨isText_ascii (by decide), by decide, by unfold HasCrLf; decide, by rw [← startsBlank_iff]; decide,
    isText_ascii (by decide), by unfold HasCrLf; decide⟩, by decide +kernel, fun h => absurd h (by decide +kernel)⟩

end HttpIo
