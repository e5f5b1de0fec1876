import Verif.Props.Abandon
import Verif.Props.CutUpload
import Verif.Props.Breaks
import Verif.Spec.Unfinished

/-! C131: requests that a caller begins and drops. -/

namespace HttpIo
open Spec

section
variable [CaseMap] {c : Cfg}

/-- A request that is begun and dropped, on any connection; writing keeps `K`. -/
theorem request_begun {ς : Type} [LawfulReader ς] [LawfulWriter ς] {P K : ς → Prop} (hr : Reliable c P) (hk : Kept K) (s : ς)
    (hs : P s) (hK : K s) (q : Ask) (hq : q.Proper) :
    ∃ b o bytes, HttpRequestBuilder.new c (HttpUrl.tryFrom q.url) (if q.put then .Put else .Get) = .ok b ∧
      b.send s = .ok o ∧ q.Begun bytes ∧ sent (perform o q.writes).2.dropped = sent s ++ bytes ∧
      P (perform o q.writes).2.dropped ∧ K (perform o q.writes).2.dropped := by
  obtain ⟨host, hhost⟩ := hq.host
  obtain ⟨sch, h1, _⟩ := HttpUrl.tryFrom_ok hq.ascii hq.scheme hhost
  obtain ⟨b, h2, h3, h4, h5, h6⟩ := HttpRequestBuilder.new_ok c ⟨q.url, sch, host⟩ (if q.put then .Put else .Get)
  have huri : b.request.uri = requestTarget { q.url with query := none } := by
    rw [h4]; unfold requestTarget; dsimp only; rw [List.append_nil]
  obtain ⟨o, g1, g2⟩ := hr.serialize_ok b.request (s := s) hs
  have k1 := hk.serialize (r := b.request) (s := s) hK
  rw [g1] at k1
  obtain ⟨e1, e2⟩ := C18_serialized b.request s h5 o g1
  have hsend : b.send s = .ok o := g1
  rw [h3, huri, h6] at e1
  have k2 := hk.droppedRequest (hk.outgoing.perform (cs := q.writes) k1)
  cases o with
  | WithBody ob =>
    have hput : q.put = true := by
      have := e2.1 ⟨ob, rfl⟩
      rw [h3] at this
      cases hp : q.put with
      | true => rfl
      | false => rw [hp] at this; simp at this
    obtain ⟨b', g3, g4⟩ := hr.perform_ok (b := ob) (cs := q.writes) g2
    obtain ⟨_, p, _, m1, m2⟩ := OutgoingBody.perform_sent g3
    obtain ⟨chs, m3, m4⟩ := chunksFor (written q.writes) hq.small
    have hperf : (perform (.WithBody ob : OutgoingRequest c ς) q.writes).2 = .WithBody b' := by rw [perform_withBody, g3]
    rw [hperf] at k2
    refine ⟨b, .WithBody ob, requestHead .Put (requestTarget { q.url with query := none }) (standardHeaders .Put host) ++
        (chs.map Chunk.bytes).flatten, by rw [h1]; exact h2, hsend, ⟨host, hhost, ?_⟩, ?_, ?_, by rw [hperf]; exact k2⟩
    · rw [if_pos hput]; exact ⟨chs, m3, rfl⟩
    · rw [hput] at e1
      rw [hperf]
      show sent b'.socket.dropped = _
      have hd : sent b'.socket.dropped = sent b'.socket := by
        unfold BufWriter.dropped
        rw [BufWriter.sent_eq]
        split
        · have := hr.flushBuf_ok (w := b'.socket) g4
          rcases hf : b'.socket.flushBuf with ⟨r, w'⟩
          rw [hf] at this
          obtain ⟨f1, _, f2⟩ := BufWriter.flushBuf_sent hf
          rw [f2 this.1, List.append_nil] at f1
          exact f1
        · rfl
      rw [hd, m1, m2 rfl, m4, show sent ob.socket = outgoingSent (.WithBody ob) from rfl, e1]
      simp
    · rw [hperf]
      show P b'.socket.dropped
      unfold BufWriter.dropped
      split
      · exact (hr.flushBuf_ok g4).2
      · exact g4
  | NoBody t =>
    have hput : q.put = false := by
      cases hp : q.put with
      | false => rfl
      | true =>
        obtain ⟨ob, hob⟩ := e2.2 (by rw [h3, hp]; simp)
        simp at hob
    obtain ⟨f1, _⟩ := perform_noBody (c := c) t q.writes
    rw [f1] at k2
    refine ⟨b, .NoBody t, requestHead .Get (requestTarget { q.url with query := none }) (standardHeaders .Get host),
      by rw [h1]; exact h2, hsend, ⟨host, hhost, ?_⟩, ?_, by rw [f1]; exact g2, by rw [f1]; exact k2⟩
    · rw [if_neg (by rw [hput]; simp)]
    · rw [hput] at e1
      rw [f1]
      show sent t = _
      rw [show sent t = outgoingSent (.NoBody (c := c) t) from rfl, e1]
      simp

end

section
variable [CaseMap] {c : Cfg} {ω α σ : Type} [DecidableEq α] [PeerSocket σ] [ZeroReader σ]

/-- One use of the client for a request that is begun and dropped. -/
theorem unfinished_step (N : StreamConnector ω α σ) (q : Ask) (cl : HttpClient α σ) (w : ω) (a : α)
    (haddr : ∀ w, (N.toStreamAddr q.url w).1 = .ok a) {s : σ} {b : HttpRequestBuilder c} {o : OutgoingRequest c σ}
    (hs : poolGet a cl.streams = some s ∨ poolGet a cl.streams = none ∧ ∀ w, (N.connect a w).1 = .ok s)
    (h1 : HttpRequestBuilder.new c (HttpUrl.tryFrom q.url) (if q.put then .Put else .Get) = .ok b)
    (h2 : b.send s = .ok o) :
    ∃ cl' w', exchange N (q.unfinished (c := c)) cl w = (.ok .unsent, cl', w') ∧
      poolGet a cl'.streams = some (perform o q.writes).2.dropped := by
  have ha := haddr w
  rcases hw1 : N.toStreamAddr q.url w with ⟨r, w1⟩
  rw [hw1] at ha
  dsimp only at ha
  subst ha
  have hs' : ∃ w2, (poolGet a cl.streams = some s ∧ w2 = w1) ∨
      (poolGet a cl.streams = none ∧ N.connect a w1 = (.ok s, w2)) := by
    rcases hs with h | ⟨h, hc⟩
    · exact ⟨w1, .inl ⟨h, rfl⟩⟩
    · exact ⟨(N.connect a w1).2, .inr ⟨h, Prod.ext (hc w1) rfl⟩⟩
  obtain ⟨w2, hs'⟩ := hs'
  obtain ⟨cl', e1, e2, _⟩ := exchange_on N (Ask.unfinished (c := c) q) cl w w1 w2 q.url b rfl h1 a s hw1 hs'
  rw [h2] at e1 e2
  exact ⟨cl', w2, e1, e2⟩

variable (N : StreamConnector ω α σ) (P : σ → Prop) (hr : Reliable c P) (a : α)
  (cl : HttpClient α σ) (s : σ)
  (hs : poolGet a cl.streams = some s ∨ poolGet a cl.streams = none ∧ ∀ w, (N.connect a w).1 = .ok s) (hPs : P s)

include hr hs hPs

/-- The two requests on the connection: the one begun and dropped, and the next. -/
theorem unfinished_next (q1 q2 : Ask) (h1 : q1.Proper) (h2 : q2.Proper) (haddr1 : ∀ w, (N.toStreamAddr q1.url w).1 = .ok a)
    (haddr2 : ∀ w, (N.toStreamAddr q2.url w).1 = .ok a) (w : ω) :
    ∃ (begun bytes : Bytes) (o o' : OutgoingRequest c σ) (s2 : σ) (out : Outcome) (s3 : σ), q1.Begun begun ∧ q2.Bytes bytes ∧ perform o q2.writes = (true, o') ∧ o'.complete = .ok s2 ∧
      wire s2 = sent s ++ begun ++ bytes ∧ PeerSocket.peer s2 = PeerSocket.peer s ∧ PeerSocket.taken s2 = PeerSocket.taken s ∧
      roundTrip q2.writes q2.sizes o = (out, s3) ∧
      (history (c := c) N [q1.unfinished, q2.exchange] cl w).1 = [.ok .unsent, .ok out] ∧
      poolGet a (history (c := c) N [q1.unfinished, q2.exchange] cl w).2.1.streams = some s3 := by
  obtain ⟨b1, o1, begun, e1, e2, e3, e4, e5, e6⟩ := request_begun hr
    (peer_kept (PeerSocket.peer s) (PeerSocket.taken s)) s hPs ⟨rfl, rfl⟩ q1 h1
  obtain ⟨cl', w', x1, x2⟩ := unfinished_step N q1 cl w a haddr1 hs e1 e2
  obtain ⟨b2, o2, o2', s2, bytes, f1, f2, f3, f4, f5, f6, _, f8, f9⟩ := request_given hr
    (peer_kept (PeerSocket.peer s) (PeerSocket.taken s)) _ e5 e6 q2 h2
  rcases hrt : roundTrip q2.writes q2.sizes o2 with ⟨out, s3⟩
  obtain ⟨cl'', w'', y1, y2⟩ := exchange_step N q2 cl' w' a haddr2 (.inl x2) f1 f2 hrt
  refine ⟨begun, bytes, o2, o2', s2, out, s3, e3, f5, f3, f4, by rw [f6, e4], f9.1, f9.2, hrt, ?_, ?_⟩
  · simp only [history]
    rw [x1]; dsimp only
    rw [y1]
  · simp only [history]
    rw [x1]; dsimp only
    rw [y1]; exact y2

/-- The property is false. A GET is on its way when `get` returns. If the caller drops it and makes another request on the
connection, that one obtains the response to the GET that was dropped, with and without `std`. -/
theorem C131_get_false (idle : List Ev) (hfl : wire s = sent s) (hpend : trace s = idle) (q1 q2 : Ask) (a1 a2 : Answer)
    (hget : q1.put = false) (h1 : q1.Proper) (h2 : q2.Proper) (g1 : a1.Proper)
    (haddr1 : ∀ w, (N.toStreamAddr q1.url w).1 = .ok a) (haddr2 : ∀ w, (N.toStreamAddr q2.url w).1 = .ok a)
    (hp2 : Positive q2.sizes) (hlen : a1.body.length ≤ q2.sizes.length)
    (hserves : Serves (Answer.Sent c) (PeerSocket.peer s) idle (wire s) (PeerSocket.taken s) [(q1, a1), (q2, a2)]) (w : ω) :
    ∃ st rs, (history (c := c) N [q1.unfinished, q2.exchange] cl w).1 = [.ok .unsent, .ok (.got st a1.headers rs)] ∧
      st.toCode = a1.status.toCode ∧ ReadAll rs a1.body := by
  obtain ⟨begun, bytes, o, o', s2, out, s3, ⟨host, e1, e2⟩, e3, e4, e5, e6, e7, e8, e9, e10, _⟩ :=
    unfinished_next N P hr a cl s hs hPs q1 q2 h1 h2 haddr1 haddr2 w
  rw [if_neg (by rw [hget]; simp)] at e2
  obtain ⟨evs1, k1, k2, k3⟩ := hserves begun ⟨host, e1, by rw [if_neg (by rw [hget]; simp)]; exact e2⟩
  obtain ⟨evs2, k4, k5, _⟩ := k3 bytes e3
  have htr : trace s2 = evs1 ++ (evs2 ++ idle) := by
    have := PeerSocket.heard s2
    rw [e6, e7, e8, ← hfl, k4, List.append_assoc, List.append_assoc] at this
    exact List.append_cancel_left this
  obtain ⟨hd, k6, k7⟩ := k2
  obtain ⟨pre, m1, m2⟩ := k7.suffix
  rw [List.append_nil] at m1
  have hdel : Delivers c (trace s2) (responseHead a1.status.display a1.headers.entries)
      (a1.body.map .byte ++ (evs2 ++ idle)) := by
    rw [htr, k6, m1, List.append_assoc]; exact m2 _
  obtain ⟨r, s4, f1, f2, _, f3, f4, f5, f6⟩ := response_delivered c s2 a1.status a1.headers _ g1.sendable
    (FramedBy.lengthOk g1.sendable.1 g1.framed) hdel
  have hfr := framedBy_unique g1.sendable.1 f4 g1.framed
  have hbody : r.body = .Limited ⟨BufReader.new c s4, a1.body.length⟩ := by
    cases hb : r.body with
    | Chunked i => rw [hb] at hfr; simp [framing] at hfr
    | ReadTilClose i => rw [hb] at hfr; simp [framing] at hfr
    | Limited t =>
      rw [hb] at hfr f5
      obtain ⟨i, l⟩ := t
      simp only [framing, Framing.limited.injEq] at hfr
      simp only [HttpBody.under, Option.some.injEq] at f5
      rw [hfr, f5]
  obtain ⟨l1, s5, l2, l3⟩ := limited_read (c := c) (BufReader.new c s4) a1.body (evs2 ++ idle)
    (by rw [BufReader.trace_new, f6]) q2.sizes hp2 hlen
  rw [← hbody] at l1 l2
  have := roundTrip_got e4 e5 f1 l2
  rw [e9, f3, Prod.mk.injEq] at this
  rw [e10, this.1]
  exact ⟨_, _, rfl, by rw [f2, C01_code_lossless], l1⟩

end

/-- What does not begin like a number is not a chunk size. -/
theorem chunkT_noSize {c : Cfg} {b : UInt8} (hb : ∀ l, l.head? = some b → fromStrRadix 16 u64Max l = none) (t : List Ev) :
    ∃ e, chunkT c [] none (.byte b :: t) = [.fault e] := by
  rw [chunkT_size]
  rcases h : expectNextT c (.byte b :: t) with ⟨e | l, t'⟩
  · exact ⟨_, rfl⟩
  · dsimp only
    have : l.head? = some b := by
      unfold expectNextT at h
      rcases hi : innerNextT c [] (.byte b :: t) with ⟨_ | _ | l', t1⟩ <;> rw [hi] at h
      · simp at h
      · simp at h
      · simp only [Prod.mk.injEq, Except.ok.injEq] at h
        obtain ⟨rfl, rfl⟩ := h
        rw [innerNextT, List.nil_append] at hi
        have hnone : lineStep [b] = none := by unfold lineStep; rw [if_neg (by simp)]
        rw [hnone] at hi
        exact innerNextT_head hi (by simp)
    rw [hb l this]
    exact ⟨_, rfl⟩

theorem letter_noSize {b : UInt8} (hb : b = 71 ∨ b = 80) (l : Bytes) (hl : l.head? = some b) : fromStrRadix 16 u64Max l = none := by
  match l, hl with
  | [x], h =>
    simp only [List.head?_cons, Option.some.injEq] at h
    subst h
    rcases hb with rfl | rfl <;> decide
  | x :: y :: l, h =>
    simp only [List.head?_cons, Option.some.injEq] at h
    subst h
    rcases hb with rfl | rfl <;> simp [fromStrRadix, digitLoop, show toDigit 16 71 = none by decide, show toDigit 16 80 = none by decide]

section
variable [CaseMap] {c : Cfg} {ω α σ : Type} [DecidableEq α] [PeerSocket σ] [ZeroReader σ]

/-- Nor does it hold for a PUT. What the caller wrote is sent when the request is dropped, without the last chunk, and the next
request follows it on the connection. A server that reads them finds one request, the PUT, and the data of what was
written; then its body fails. It never sees the second request: its first line is taken for the size of a chunk. -/
theorem C131_put_false (N : StreamConnector ω α σ) (P : σ → Prop) (hr : Reliable c P) (a : α) (cl : HttpClient α σ) (s : σ)
    (hs : poolGet a cl.streams = some s ∨ poolGet a cl.streams = none ∧ ∀ w, (N.connect a w).1 = .ok s) (hPs : P s)
    (q1 q2 : Ask) (hput : q1.put = true) (h1 : q1.Proper) (h2 : q2.Proper)
    (ht : SendableTarget (requestTarget { q1.url with query := none }))
    (hhost : ∀ host, q1.url.host = some host → IsText host ∧ ¬ HasCrLf host)
    (haddr1 : ∀ w, (N.toStreamAddr q1.url w).1 = .ok a) (haddr2 : ∀ w, (N.toStreamAddr q2.url w).1 = .ok a) (w : ω) :
    ∃ begun bytes s3, q1.Begun begun ∧ q2.Bytes bytes ∧
      poolGet a (history (c := c) N [q1.unfinished, q2.exchange] cl w).2.1.streams = some s3 ∧
      wire s3 = sent s ++ begun ++ bytes ∧
      ∀ {ρ : Type} [LawfulReader ρ] [ZeroReader ρ] (c' : Cfg) (u : ρ) (more : List Ev),
        trace u = (begun ++ bytes).map .byte ++ more →
        ∃ r u' e, HttpRequest.deserialize c' u = (.ok r, u') ∧ r.method = .Put ∧
          r.uri = requestTarget { q1.url with query := none } ∧ FailsAfter r.body (written q1.writes).flatten e := by
  obtain ⟨begun, bytes, o, o', s2, out, s3, e1, e3, e4, e5, e6, e7, e8, e9, e10, e11⟩ :=
    unfinished_next N P hr a cl s hs hPs q1 q2 h1 h2 haddr1 haddr2 w
  refine ⟨begun, bytes, s3, e1, e3, e11, ?_, ?_⟩
  · have hk : ReadKept fun x : σ => wire x = wire s2 := ⟨fun x n h => by rw [PeerSocket.read_wire]; exact h⟩
    have := roundTrip_readKept hk (sizes := q2.sizes) e4 e5 rfl
    rw [e9] at this
    rw [this, e6]
  · intro ρ _ _ c' u more hu
    obtain ⟨host, f1, f2⟩ := e1
    rw [if_pos hput] at f2
    obtain ⟨chs, f3, rfl⟩ := f2
    obtain ⟨hd, k1, k2, k3, k4⟩ := standard_ok .Put host (hhost host f1)
    rw [← k1] at hu
    have hbytes : ∃ b x, bytes = b :: x ∧ (b = 71 ∨ b = 80) := by
      obtain ⟨host2, _, m2⟩ := e3
      split at m2
      · obtain ⟨chs2, _, m3⟩ := m2
        rw [m3]
        unfold requestHead
        rw [show utf8 (methodName .Put) = b!"PUT" by decide +kernel]
        exact ⟨80, _, rfl, .inr rfl⟩
      · rw [m2]
        unfold requestHead
        rw [show utf8 (methodName .Get) = b!"GET" by decide +kernel]
        exact ⟨71, _, rfl, .inl rfl⟩
    obtain ⟨b, x, rfl, hb⟩ := hbytes
    obtain ⟨r, u', g1, g2, g3, _, g5, g6, g7, g8⟩ := C18_roundtrip c' u .Put _ hd
      ((chs.map Chunk.bytes).flatten.map .byte ++ .byte b :: (x.map .byte ++ more)) ht k2 k3 (by
        have := delivers_map c' (requestHead .Put (requestTarget { q1.url with query := none }) hd.entries)
          ((chs.map Chunk.bytes).flatten.map .byte ++ .byte b :: (x.map .byte ++ more))
        rw [hu]
        simpa using this)
    have hf := framedBy_unique k2.1 g6 (.chunked (k4 (by simp [Carries])))
    obtain ⟨hu2, enc, len, hbd⟩ := request_under g1
    have htr : trace r.body = chunkT c' [] none (trace u') := by
      rw [hbd] at hf ⊢
      by_cases he : enc = some b!"chunked"
      · subst he; rw [chunked_new]; rfl
      · unfold HttpBody.new at hf; rw [if_neg he] at hf; cases len <;> simp [framing] at hf
    obtain ⟨e, he⟩ := chunkT_noSize (c := c') (letter_noSize hb) (x.map .byte ++ more)
    rw [g8, chunkT_chunks (fun ch h => (f3.1 ch h).1), he] at htr
    refine ⟨r, u', e, g1, g2, g3, ?_⟩
    have hdata : chunkedData chs = (written q1.writes).flatten := by
      rw [chunkedData, f3.2]
      clear htr hbd hf g1 g8 f3 hu
      generalize written q1.writes = bufs
      induction bufs with
      | nil => rfl
      | cons b bufs ih => by_cases hb : b = [] <;> simp_all
    rw [← hdata]
    exact failsAfter_of_trace (t := []) htr

end

section
variable [CaseMap] {c : Cfg} {ω α σ β : Type} [DecidableEq α] [Writer σ]

/-- Two clients that have the same connections but for one address. -/
def Alike (a : α) (cl cl' : HttpClient α σ) : Prop := ∀ b, b ≠ a → poolGet b cl.streams = poolGet b cl'.streams

omit [Writer σ] [CaseMap] in
theorem alike_set {a b : α} {s : σ} {l l' : List (α × σ)} (h : ∀ x, x ≠ a → poolGet x l = poolGet x l') (x : α) (hx : x ≠ a) :
    poolGet x (poolSet b s l) = poolGet x (poolSet b s l') := by
  by_cases hxb : x = b
  · subst hxb; rw [poolGet_set_same, poolGet_set_same]
  · rw [poolGet_set_other hxb, poolGet_set_other hxb, h x hx]

/-- A use for another address. -/
theorem alike_exchange (N : StreamConnector ω α σ) (a : α) (cl cl' : HttpClient α σ) (h : Alike a cl cl') (y : Exchange c σ β) (w : ω)
    (hy : ∀ u w b, y.url = some u → (N.toStreamAddr u w).1 = .ok b → b ≠ a) :
    (exchange N y cl w).1 = (exchange N y cl' w).1 ∧ (exchange N y cl w).2.2 = (exchange N y cl' w).2.2 ∧
      Alike a (exchange N y cl w).2.1 (exchange N y cl' w).2.1 := by
  rw [exchange_eq, exchange_eq]
  unfold HttpClient.request HttpClient.getStream
  cases hu : y.url with
  | none => exact ⟨rfl, rfl, h⟩
  | some u =>
    dsimp only
    cases HttpRequestBuilder.new c (HttpUrl.tryFrom u) (if y.put then .Put else .Get) with
    | err e => exact ⟨rfl, rfl, h⟩
    | panic => exact ⟨rfl, rfl, h⟩
    | ok b =>
      dsimp only
      rcases ha : N.toStreamAddr u w with ⟨_ | _ | _, w1⟩
      · rename_i b1
        have hb := hy u w b1 hu (by rw [ha])
        dsimp only
        rw [h b1 hb]
        cases poolGet b1 cl'.streams with
        | some s =>
          dsimp only
          cases b.send s with
          | ok o => exact ⟨rfl, rfl, fun x hx => alike_set h x hx⟩
          | error es => exact ⟨rfl, rfl, fun x hx => alike_set h x hx⟩
        | none =>
          dsimp only
          rcases N.connect b1 w1 with ⟨_ | _ | _, w2⟩
          · dsimp only
            rename_i s
            cases b.send s with
            | ok o => exact ⟨rfl, rfl, fun x hx => alike_set (fun x hx => alike_set h x hx) x hx⟩
            | error es => exact ⟨rfl, rfl, fun x hx => alike_set (fun x hx => alike_set h x hx) x hx⟩
          · exact ⟨rfl, rfl, h⟩
          · exact ⟨rfl, rfl, h⟩
      · exact ⟨rfl, rfl, h⟩
      · exact ⟨rfl, rfl, h⟩

/-- A use for this address. -/
theorem alike_after (N : StreamConnector ω α σ) (a : α) (cl : HttpClient α σ) (x : Exchange c σ β) (w : ω)
    (hx : ∀ u w b, x.url = some u → (N.toStreamAddr u w).1 = .ok b → b = a) : Alike a (exchange N x cl w).2.1 cl := by
  rw [exchange_eq]
  unfold HttpClient.request HttpClient.getStream
  cases hu : x.url with
  | none => exact fun _ _ => rfl
  | some u =>
    dsimp only
    cases HttpRequestBuilder.new c (HttpUrl.tryFrom u) (if x.put then .Put else .Get) with
    | err e => exact fun _ _ => rfl
    | panic => exact fun _ _ => rfl
    | ok b =>
      dsimp only
      rcases ha : N.toStreamAddr u w with ⟨_ | _ | _, w1⟩
      · rename_i b1
        obtain rfl := hx u w b1 hu (by rw [ha])
        dsimp only
        cases poolGet b1 cl.streams with
        | some s =>
          dsimp only
          cases b.send s with
          | ok o => exact fun y hy => poolGet_set_other hy _ _
          | error es => exact fun y hy => poolGet_set_other hy _ _
        | none =>
          dsimp only
          rcases N.connect b1 w1 with ⟨_ | _ | _, w2⟩
          · dsimp only
            rename_i s
            cases b.send s with
            | ok o => exact fun y hy => (poolGet_set_other hy _ _).trans (poolGet_set_other hy _ _)
            | error es => exact fun y hy => (poolGet_set_other hy _ _).trans (poolGet_set_other hy _ _)
          · exact fun _ _ => rfl
          · exact fun _ _ => rfl
      · exact fun _ _ => rfl
      · exact fun _ _ => rfl

/-- What does hold: only the connection of the dropped request is disturbed. Whatever a caller does with a request (dropping it
unfinished, too), all uses of the client for other addresses go as they would have gone without it, in the world as it
then is. Missing for the full property: `HttpClient` does not discard the connection. -/
theorem C131_others_partial (N : StreamConnector ω α σ) (a : α) (cl : HttpClient α σ) (x : Exchange c σ β) (w : ω)
    (hx : ∀ u w b, x.url = some u → (N.toStreamAddr u w).1 = .ok b → b = a) (ys : List (Exchange c σ β))
    (hys : ∀ y ∈ ys, ∀ u w b, y.url = some u → (N.toStreamAddr u w).1 = .ok b → b ≠ a) :
    (history N (x :: ys) cl w).1 = (exchange N x cl w).1 :: (history N ys cl (exchange N x cl w).2.2).1 := by
  simp only [history, List.cons.injEq, true_and]
  have key : ∀ (ys : List (Exchange c σ β)) (cl cl' : HttpClient α σ) (w : ω), Alike a cl cl' →
      (∀ y ∈ ys, ∀ u w b, y.url = some u → (N.toStreamAddr u w).1 = .ok b → b ≠ a) →
      (history N ys cl w).1 = (history N ys cl' w).1 := by
    intro ys
    induction ys with
    | nil => intros; rfl
    | cons y ys ih =>
      intro cl cl' w h hy
      obtain ⟨h1, h2, h3⟩ := alike_exchange N a cl cl' h y w (hy y (by simp))
      simp only [history]
      rw [h1, h2, ih _ _ _ h3 fun y' hy' => hy y' (by simp [hy'])]
  exact key ys _ _ _ (alike_after N a cl x w hx) hys

end

/-- Witness for `C131_get_false`: the GET whose response is `data` is dropped; the next one obtains `data`, not `hi`. -/
example (c : Cfg) (idle : Option Err) (seg : Nat) : let _ := asciiCase
    ∃ st rs, (history (c := c) (oneConnector (pairPeer (okAnswer b!"data") (okAnswer b!"hi") idle seg))
      [(sampleAsk []).unfinished, (sampleAsk [4, 4, 4, 4]).exchange] HttpClient.new ()).1 =
        [.ok .unsent, .ok (.got st (okAnswer b!"data").headers rs)] ∧ st.toCode = 200 ∧ ReadAll rs b!"data" := by
  obtain ⟨P, hr, hP, hidle, hPs, hfl, hpend⟩ := script_setting c 62
    [answerBytes (okAnswer b!"data"), answerBytes (okAnswer b!"hi")] idle seg
  exact @C131_get_false asciiCase c Unit Unit Talker _ _ _ _ P hr () HttpClient.new
    (pairPeer (okAnswer b!"data") (okAnswer b!"hi") idle seg) (.inr ⟨rfl, fun _ => rfl⟩) hPs _ hfl hpend (sampleAsk [])
    (sampleAsk [4, 4, 4, 4]) (okAnswer b!"data") (okAnswer b!"hi") rfl (sampleAsk_proper _) (sampleAsk_proper _)
    (okAnswer_proper _ (by decide)) (fun _ => rfl) (fun _ => rfl)
    (by unfold Positive sampleAsk; decide) (by decide) (pairPeer_serves c _ _ _ _ idle seg) ()

/-- A PUT request for `sampleUrl`. -/
def samplePut (writes : List WCall) : Ask := ⟨true, sampleUrl, writes, []⟩

/-- Witness for `C131_put_false`: `abc` is written and the request is dropped; then comes a GET. -/
example (c : Cfg) (idle : Option Err) (seg : Nat) : let _ := asciiCase
    let s := pairPeer (okAnswer b!"data") (okAnswer b!"hi") idle seg
    (∃ P : Talker → Prop, Reliable c P ∧ P s) ∧ (samplePut [.write b!"abc"]).Proper ∧ (sampleAsk [4]).Proper ∧
    SendableTarget (requestTarget { sampleUrl with query := none }) ∧ (IsText b!"h" ∧ ¬ HasCrLf b!"h") ∧
    sampleUrl.host = some b!"h" ∧ (poolGet () (HttpClient.new : HttpClient Unit Talker).streams = none) ∧
    ∀ w, ((oneConnector s).connect () w).1 = .ok s := by
  intro _ s
  obtain ⟨P, hr, _, _, hPs, _, _⟩ := script_setting c 62
    [answerBytes (okAnswer b!"data"), answerBytes (okAnswer b!"hi")] idle seg
  refine ⟨⟨P, hr, hPs⟩, ?_, sampleAsk_proper _, ?_, ⟨isText_ascii (by decide), by unfold HasCrLf; decide⟩, rfl, rfl, fun _ => rfl⟩
  · have := sampleAsk_proper []
    exact ⟨this.ascii, this.scheme, this.host, by simp [written, samplePut], by simp [samplePut]⟩
  · exact ⟨by decide, isText_ascii (by decide), by decide, by decide, by unfold HasCrLf; decide⟩

/-- ... and with what outcome: the peer, which waits for 62 bytes, sees the PUT, and answers it while the client waits for the
answer to the GET. -/
example (c : Cfg) : let _ := asciiCase
    (history (c := c) (oneConnector (pairPeer (okAnswer b!"data") (okAnswer b!"hi") none 10))
      [(samplePut [.write b!"abc"]).unfinished, (sampleAsk [4, 4]).exchange] HttpClient.new ()).1 =
        [.ok .unsent, .ok (.got .OK (okAnswer b!"data").headers [.ok b!"data", .ok []])] := by
  intro _
  rcases c with ⟨_ | _⟩ <;> decide +kernel

/-- A network with an address for each port. -/
def portConnector (s : Talker) : StreamConnector Unit Nat Talker := ⟨fun _ w => (.ok s, w), fun u w => (.ok (u.port.getD 80), w)⟩

/-- Witness for `C131_others_partial`: a dropped request, and a request to another port. -/
example : let _ := asciiCase
    let N := portConnector (pairPeer (okAnswer b!"data") (okAnswer b!"hi") none 10)
    let x : Exchange ⟨true⟩ Talker Outcome := (sampleAsk []).unfinished
    let y : Exchange ⟨true⟩ Talker Outcome := { (sampleAsk [4, 4]).exchange with url := some { sampleUrl with port := some 81 } }
    (∀ u w b, x.url = some u → (N.toStreamAddr u w).1 = .ok b → b = sampleUrl.port.getD 80) ∧
    (∀ u w b, y.url = some u → (N.toStreamAddr u w).1 = .ok b → b ≠ sampleUrl.port.getD 80) ∧
    (history N [x, y] HttpClient.new ()).1 = [.ok .unsent, .ok (.got .OK (okAnswer b!"data").headers [.ok b!"data", .ok []])] := by
  intro _ N x y
  refine ⟨?_, ?_, by decide +kernel⟩
  · intro u w b h1 h2
    simp only [x, Ask.unfinished, sampleAsk, Option.some.injEq] at h1
    subst h1
    simpa [N, portConnector] using h2.symm
  · intro u w b h1 h2
    simp only [y, Option.some.injEq] at h1
    subst h1
    simp only [N, portConnector, Option.getD_some, Res.ok.injEq] at h2
    rw [← h2]; decide

end HttpIo
