import Verif.Spec.Peer
import Verif.Lemmas.ReadKept
import Verif.Lemmas.Client
import Verif.Props.Body
import Verif.Props.Message
import Verif.Props.Request

/-! One request and its response over a connection to a peer. -/

namespace HttpIo
open Spec

theorem framedBy_unique [CaseMap] {entries : List (Bytes × Bytes)} {f g : Framing} (hs : SortedNames entries)
    (hf : FramedBy entries f) (hg : FramedBy entries g) : f = g := by
  have huniq : ∀ v w, (b!"content-length", v) ∈ entries → (b!"content-length", w) ∈ entries → v = w := by
    intro v w hv hw
    have h1 := (mapGet_iff hs _ _).2 hv
    have h2 := (mapGet_iff hs _ _).2 hw
    rw [h1] at h2; simpa using h2
  cases hf with
  | chunked h =>
    cases hg with
    | chunked => rfl
    | limited h' => exact absurd h h'
    | tilClose h' => exact absurd h h'
  | limited h1 h2 h3 =>
    cases hg with
    | chunked h => exact absurd h h1
    | limited _ h5 h6 =>
      have := huniq _ _ h2 h5
      subst this
      have e1 := lengthText_iff.2 h3
      have e2 := lengthText_iff.2 h6
      rw [e1] at e2
      simpa using e2
    | tilClose _ h' => exact absurd h2 (h' _)
  | tilClose h1 h2 =>
    cases hg with
    | chunked h => exact absurd h h1
    | limited _ h' => exact absurd h' (h2 _)
    | tilClose => rfl

theorem FramedBy.lengthOk [CaseMap] {entries : List (Bytes × Bytes)} {n : Nat} (hs : SortedNames entries)
    (hf : FramedBy entries (.limited n)) : LengthOk entries := by
  cases hf with
  | limited h1 h2 h3 =>
    intro w hw
    have e1 := (mapGet_iff hs _ _).2 h2
    have e2 := (mapGet_iff hs _ _).2 hw
    rw [e1] at e2
    simp only [Option.some.injEq] at e2
    exact ⟨n, e2 ▸ h3⟩

section
variable [CaseMap] {c : Cfg} {σ : Type} [PeerSocket σ] [ZeroReader σ]

omit [CaseMap] [ZeroReader σ] in
/-- Writing keeps the peer and what was read. -/
theorem peer_kept (p : Bytes → List Ev) (got : List Ev) :
    Kept fun s : σ => PeerSocket.peer s = p ∧ PeerSocket.taken s = got :=
  ⟨fun s buf h => ⟨by rw [PeerSocket.write_peer]; exact h.1, by rw [PeerSocket.write_taken]; exact h.2⟩,
    fun s h => ⟨by rw [PeerSocket.flush_peer]; exact h.1, by rw [PeerSocket.flush_taken]; exact h.2⟩,
    fun c s buf h => ⟨by rw [PeerSocket.writeAll_peer]; exact h.1, by rw [PeerSocket.writeAll_taken]; exact h.2⟩⟩

omit [CaseMap] in
theorem read_suffix {ρ : Type} [LawfulReader ρ] [ZeroReader ρ] (s : ρ) (n : Nat) : trace (read s n).2 <:+ trace s := by
  by_cases hn : n = 0
  · subst hn
    rcases ZeroReader.read_zero s with ⟨_, h⟩ | ⟨e, t, h1, _, h2⟩
    · rw [show trace (read s 0).2 = trace s from h]; exact List.suffix_refl _
    · rw [show trace (read s 0).2 = t from h2, h1]; exact List.suffix_cons _ _
  · have := LawfulReader.read_step s n (by omega)
    generalize trace (read s n).2 = t' at *
    generalize trace s = t at *
    generalize (read s n).1 = r at *
    cases this with
    | eof => exact List.suffix_refl _
    | fault => exact List.suffix_cons _ _
    | data => exact List.suffix_append _ _

omit [CaseMap] in
/-- Reading keeps the peer and what was sent. -/
theorem peer_readKept {P : σ → Prop} {idle : List Ev} (hP : ∀ s n, P s → idle <:+ trace (read s n).2 → P (read s n).2)
    (p : Bytes → List Ev) (x y : Bytes) :
    ReadKept fun s : σ => PeerSocket.peer s = p ∧ wire s = x ∧ sent s = y ∧ (idle <:+ trace s → P s) :=
  ⟨fun s n h => ⟨by rw [PeerSocket.read_peer]; exact h.1, by rw [PeerSocket.read_wire]; exact h.2.1,
    by rw [PeerSocket.read_sent]; exact h.2.2.1, fun hi => hP s n (h.2.2.2 (hi.trans (read_suffix s n))) hi⟩⟩

/-- A request that is all sent, on any connection; writing keeps `K`. -/
theorem request_given {ς : Type} [LawfulReader ς] [LawfulWriter ς] {P K : ς → Prop} (hr : Reliable c P) (hk : Kept K) (s : ς)
    (hs : P s) (hK : K s) (q : Ask) (hq : q.Proper) :
    ∃ b o o' s1 bytes, HttpRequestBuilder.new c (HttpUrl.tryFrom q.url) (if q.put then .Put else .Get) = .ok b ∧
      b.send s = .ok o ∧ perform o q.writes = (true, o') ∧ o'.complete = .ok s1 ∧ q.Bytes bytes ∧
      wire s1 = sent s ++ bytes ∧ sent s1 = wire s1 ∧ P s1 ∧ K s1 := by
  obtain ⟨host, hhost⟩ := hq.host
  obtain ⟨sch, h1, _⟩ := HttpUrl.tryFrom_ok hq.ascii hq.scheme hhost
  obtain ⟨b, h2, h3, h4, h5, h6⟩ := HttpRequestBuilder.new_ok c ⟨q.url, sch, host⟩ (if q.put then .Put else .Get)
  have huri : b.request.uri = requestTarget { q.url with query := none } := by
    rw [h4]; unfold requestTarget; dsimp only; rw [List.append_nil]
  obtain ⟨o, g1, g2⟩ := hr.serialize_ok b.request (s := s) hs
  have k1 := hk.serialize (r := b.request) (s := s) hK
  rw [g1] at k1
  obtain ⟨e1, e2⟩ := C18_serialized b.request s h5 o g1
  obtain ⟨o', g3, g4⟩ : ∃ o', perform o q.writes = (true, o') ∧ P o'.socketOf := by
    cases o with
    | WithBody ob =>
      obtain ⟨b', g3, g4⟩ := hr.perform_ok (b := ob) (cs := q.writes) g2
      exact ⟨.WithBody b', by rw [perform_withBody, g3], g4⟩
    | NoBody t =>
      have hput : q.put = false := by
        cases hp : q.put with
        | false => rfl
        | true =>
          obtain ⟨ob, hob⟩ := e2.2 (by rw [h3, hp]; simp)
          simp at hob
      obtain ⟨f1, f2⟩ := perform_noBody (c := c) t q.writes
      exact ⟨.NoBody t, Prod.ext (f2.2 (hq.bodiless hput)) f1, g2⟩
  have k2 := hk.outgoing.perform (cs := q.writes) k1
  rw [g3] at k2
  obtain ⟨s1, g5, g6⟩ := hr.complete_ok g4
  have k3 := hk.complete k2
  rw [g5] at k3
  obtain ⟨m1, m2, m3⟩ := sent_request hq.small g3 g5
  have hsend : b.send s = .ok o := g1
  rw [h3, huri, h6] at e1
  cases hput : q.put with
  | true =>
    rw [hput] at h3 e1 h2
    obtain ⟨ob, hob⟩ := e2.2 (by rw [h3]; simp)
    subst hob
    obtain ⟨chs, m4, m5⟩ := m3 ob rfl
    rw [show sent ob.socket = outgoingSent (.WithBody ob) from rfl, e1] at m5
    refine ⟨b, _, o', s1, requestHead .Put (requestTarget { q.url with query := none }) (standardHeaders .Put host) ++
        chunkedBytes chs (utf8 "0") ++ [13, 10], by rw [h1]; exact h2, hsend, g3, g5, ⟨host, hhost, ?_⟩, ?_, m1.symm, g6,
        k3⟩
    · rw [if_pos hput]; exact ⟨chs, m4, rfl⟩
    · rw [m1, m5, show utf8 "0" = b!"0" by decide +kernel]; simp
  | false =>
    rw [hput] at h3 e1 h2
    cases o with
    | WithBody ob =>
      have := e2.1 ⟨ob, rfl⟩
      rw [h3] at this
      simp at this
    | NoBody t =>
      obtain ⟨m4, _⟩ := m2 t rfl
      rw [show sent t = outgoingSent (.NoBody (c := c) t) from rfl, e1] at m4
      refine ⟨b, _, o', s1, requestHead .Get (requestTarget { q.url with query := none }) (standardHeaders .Get host),
        by rw [h1]; exact h2, hsend, g3, g5, ⟨host, hhost, ?_⟩, ?_, m1.symm, g6, k3⟩
      · rw [if_neg (by rw [hput]; simp)]
      · rw [m1, m4]; simp

theorem request_said {ς : Type} [LawfulReader ς] [LawfulWriter ς] {P K : ς → Prop} (hr : Reliable c P) (hk : Kept K) (s : ς)
    (hs : P s) (hK : K s) (hw : wire s = sent s) (q : Ask) (hq : q.Proper) :
    ∃ b o o' s1 bytes, HttpRequestBuilder.new c (HttpUrl.tryFrom q.url) (if q.put then .Put else .Get) = .ok b ∧
      b.send s = .ok o ∧ perform o q.writes = (true, o') ∧ o'.complete = .ok s1 ∧ q.Bytes bytes ∧
      wire s1 = wire s ++ bytes ∧ sent s1 = wire s1 ∧ P s1 ∧ K s1 := by
  rw [hw]; exact request_given hr hk s hs hK q hq

/-- A request that is all sent to a peer. -/
theorem request_sent {P : σ → Prop} (hr : Reliable c P) (s : σ) (hs : P s) (hw : wire s = sent s) (q : Ask) (hq : q.Proper) :
    ∃ b o o' s1 bytes, HttpRequestBuilder.new c (HttpUrl.tryFrom q.url) (if q.put then .Put else .Get) = .ok b ∧
      b.send s = .ok o ∧ perform o q.writes = (true, o') ∧ o'.complete = .ok s1 ∧ q.Bytes bytes ∧
      wire s1 = wire s ++ bytes ∧ sent s1 = wire s1 ∧ P s1 ∧
      PeerSocket.peer s1 = PeerSocket.peer s ∧ PeerSocket.taken s1 = PeerSocket.taken s :=
  request_said hr (peer_kept (PeerSocket.peer s) (PeerSocket.taken s)) s hs ⟨rfl, rfl⟩ hw q hq

/-- Reading a delimited body to its end leaves the connection at what follows. -/
theorem limited_left {ρ : Type} [LawfulReader ρ] [ZeroReader ρ] (u : ρ) (body : Bytes) (idle : List Ev)
    (hu : trace u = body.map .byte ++ idle) (sizes : List Nat) (hp : Positive sizes)
    (hread : ReadAll (calls (HttpBody.Limited ⟨u, body.length⟩ : HttpBody c ρ) sizes).1 body) :
    ∃ s, (calls (HttpBody.Limited ⟨u, body.length⟩ : HttpBody c ρ) sizes).2.under = some s ∧ trace s = idle := by
  have hnew := limited_new c none (by simp) body.length u
  obtain ⟨_, _, s, h3, h4, _⟩ := C29_exact c none (by simp) body.length u sizes hp
  rw [hnew] at h3 h4
  refine ⟨s, h3, ?_⟩
  have hseen : seen (calls (HttpBody.Limited ⟨u, body.length⟩ : HttpBody c ρ) sizes).1 = body.map .byte := by
    obtain ⟨p, k, e1, xs, e2, _, e4⟩ := hread
    rw [e1, e2, ← e4]
    have hrep : ∀ k, seen (List.replicate k (.ok [])) = [] := by
      intro k
      induction k with
      | zero => rfl
      | succ k ih => simp [List.replicate_succ, seen, ih]
    clear e1 e2 e4
    rename_i hne
    clear hne
    induction xs with
    | nil => simpa using hrep k
    | cons x xs ih =>
      rw [List.map_cons, List.cons_append, seen, ih]; simp
  rw [hseen, hu] at h4
  exact (List.append_cancel_left h4).symm

/-- ... and it is read to its end if there are calls enough. -/
theorem limited_read {ρ : Type} [LawfulReader ρ] [ZeroReader ρ] (u : ρ) (body : Bytes) (idle : List Ev)
    (hu : trace u = body.map .byte ++ idle) (sizes : List Nat) (hp : Positive sizes) (hlen : body.length ≤ sizes.length) :
    ReadAll (calls (HttpBody.Limited ⟨u, body.length⟩ : HttpBody c ρ) sizes).1 body ∧
      ∃ s, (calls (HttpBody.Limited ⟨u, body.length⟩ : HttpBody c ρ) sizes).2.under = some s ∧ trace s = idle := by
  have hnew := limited_new c none (by simp) body.length u
  have hy := C29_yields c none (by simp) body.length u body idle hu (.inr (Nat.le_refl _)) sizes hp
  rw [hnew] at hy
  rw [List.take_length] at hy
  have hread : ReadAll (calls (HttpBody.Limited ⟨u, body.length⟩ : HttpBody c ρ) sizes).1 body := by
    rcases hy with ⟨p, h1, h2, h5⟩ | ⟨rs, k, h1, h2⟩
    · refine ⟨_, 0, (List.append_nil _).symm, ?_⟩
      have : p = body := by
        obtain ⟨xs, e1, e2, e3⟩ := h1
        have hl : (calls (HttpBody.Limited ⟨u, body.length⟩ : HttpBody c ρ) sizes).1.length = sizes.length := calls_length _ _
        have : xs.length ≤ xs.flatten.length := by
          clear e1 e3 hl
          induction xs with
          | nil => simp
          | cons x xs ih =>
            have h1 := List.length_pos_iff.2 (e2 x (by simp))
            have h2 := ih fun y hy => e2 y (by simp [hy])
            simp only [List.length_cons, List.flatten_cons, List.length_append]; omega
        rw [e1, List.length_map] at hl
        rw [e3] at this
        exact h2.eq_of_length_le (by omega)
      rw [this] at h1; exact h1
    · exact ⟨rs, k + 1, h1, h2⟩
  exact ⟨hread, limited_left u body idle hu sizes hp hread⟩

/-- ... or if a call reported the end. -/
theorem limited_read_end {ρ : Type} [LawfulReader ρ] [ZeroReader ρ] (u : ρ) (body : Bytes) (idle : List Ev)
    (hu : trace u = body.map .byte ++ idle) (sizes : List Nat) (hp : Positive sizes)
    (hend : .ok [] ∈ (calls (HttpBody.Limited ⟨u, body.length⟩ : HttpBody c ρ) sizes).1) :
    ∃ s, (calls (HttpBody.Limited ⟨u, body.length⟩ : HttpBody c ρ) sizes).2.under = some s ∧ trace s = idle := by
  have hnew := limited_new c none (by simp) body.length u
  have hy := C29_yields c none (by simp) body.length u body idle hu (.inr (Nat.le_refl _)) sizes hp
  rw [hnew] at hy
  rw [List.take_length] at hy
  rcases hy with ⟨p, ⟨xs, h1, h2, _⟩, _⟩ | ⟨rs, k, h1, h2⟩
  · rw [h1] at hend
    obtain ⟨x, hx, he⟩ := List.mem_map.1 hend
    simp only [Except.ok.injEq] at he
    exact absurd he (h2 x hx)
  · exact limited_left u body idle hu sizes hp ⟨rs, k + 1, h1, h2⟩

/-- Sending a request to a peer: afterwards the connection has pending what was pending, and the answer. -/
theorem request_heard {P : σ → Prop} (hr : Reliable c P) (s : σ) (hs : P s) (hw : wire s = sent s) (q : Ask) (hq : q.Proper)
    {κ : Type} {said : κ → List Ev → Prop} {idle got left : List Ev} {a : κ} {rest : List (Ask × κ)}
    (hgot : PeerSocket.taken s ++ left = got)
    (hserves : Serves said (PeerSocket.peer s) idle (wire s) got ((q, a) :: rest)) :
    ∃ b o o' s1 bytes evs, HttpRequestBuilder.new c (HttpUrl.tryFrom q.url) (if q.put then .Put else .Get) = .ok b ∧
      b.send s = .ok o ∧ perform o q.writes = (true, o') ∧ o'.complete = .ok s1 ∧
      wire s1 = wire s ++ bytes ∧ sent s1 = wire s1 ∧ P s1 ∧ PeerSocket.peer s1 = PeerSocket.peer s ∧
      PeerSocket.peer s (wire s1) = got ++ evs ++ idle ∧ said a evs ∧ trace s1 = left ++ evs ++ idle ∧
      Serves said (PeerSocket.peer s) idle (wire s1) (got ++ evs) rest := by
  obtain ⟨b, o, o', s1, bytes, h1, h2, h3, h4, h5, h6, h7, h8, h9, h10⟩ := request_sent hr s hs hw q hq
  obtain ⟨evs, g1, g2, g4⟩ := hserves bytes h5
  refine ⟨b, o, o', s1, bytes, evs, h1, h2, h3, h4, h6, h7, h8, h9, by rw [h6]; exact g1, g2, ?_, by rw [h6]; exact g4⟩
  have := PeerSocket.heard s1
  rw [h6, h9, h10, g1, ← hgot, List.append_assoc, List.append_assoc] at this
  rw [List.append_cancel_left this, List.append_assoc]

/-- A connection between exchanges: everything sent has left, and what is pending is `left`, then what the idle peer
gives; `got` is what the peer has sent so far. -/
structure Rests (P : σ → Prop) (pr : Bytes → List Ev) (idle left got : List Ev) (w : Bytes) (s : σ) : Prop where
  fine : P s
  flushed : wire s = sent s
  wire : wire s = w
  peer : PeerSocket.peer s = pr
  pending : trace s = left ++ idle
  taken : PeerSocket.taken s ++ left = got

/-- After reading, the connection rests. -/
theorem rests_of_read {P : σ → Prop} {pr : Bytes → List Ev} {idle left got : List Ev} {w : Bytes} {s : σ}
    (h : PeerSocket.peer s = pr ∧ HttpIo.wire s = w ∧ sent s = w ∧ (idle <:+ trace s → P s)) (ht : trace s = left ++ idle)
    (hp : pr w = got ++ idle) : Rests P pr idle left got w s := by
  refine ⟨h.2.2.2 (by rw [ht]; exact List.suffix_append _ _), by rw [h.2.1, h.2.2.1], h.2.1, h.1, ht, ?_⟩
  have := PeerSocket.heard s
  rw [h.1, h.2.1, hp, ht, ← List.append_assoc] at this
  exact List.append_cancel_right this

/-- What is left in the connection when the reader over it is dropped is the end of what was pending. -/
theorem bufReader_left {σ : Type} [LawfulReader σ] (s : BufReader c σ) (bs : Bytes) (idle : List Ev) (hidle : ∀ b t, idle ≠ .byte b :: t)
    (h : trace s = bs.map .byte ++ idle) :
    ∃ left, left <:+ bs ∧ trace s.inner = left.map .byte ++ idle ∧ (c.std = false → left = bs) := by
  rw [BufReader.trace_eq] at h
  by_cases hc : c.std = true
  · rw [if_pos hc] at h
    generalize s.buf = buf at h
    induction bs generalizing buf with
    | nil =>
      cases buf with
      | nil => exact ⟨[], List.suffix_refl _, h, fun _ => rfl⟩
      | cons x xs => exact absurd h.symm (hidle x _)
    | cons b bs ih =>
      cases buf with
      | nil => exact ⟨b :: bs, List.suffix_refl _, h, fun _ => rfl⟩
      | cons x xs =>
        simp only [List.map_cons, List.cons_append, List.cons.injEq, Ev.byte.injEq] at h
        obtain ⟨left, h1, h2, _⟩ := ih xs h.2
        exact ⟨left, h1.trans (List.suffix_cons _ _), h2, by simp [hc]⟩
  · rw [if_neg hc] at h
    exact ⟨bs, List.suffix_refl _, h, fun _ => rfl⟩

/-- Using a request whose response arrives. -/
theorem roundTrip_got {o o' : OutgoingRequest c σ} {writes : List WCall} {sizes : List Nat} {s1 s2 : σ}
    {r : HttpResponse c (BufReader c σ)} {s3 : BufReader c σ} (h1 : perform o writes = (true, o')) (h2 : o'.complete = .ok s1)
    (h3 : HttpResponse.deserialize c s1 = (.ok r, s2)) (h4 : (calls r.body sizes).2.under = some s3) :
    roundTrip writes sizes o = (.got r.status r.headers (calls r.body sizes).1, s3.inner) := by
  have hfin : o'.finish = (.ok r, s2) := by unfold OutgoingRequest.finish; rw [h2]; exact h3
  unfold roundTrip
  rw [h1]; dsimp only
  rw [hfin]; dsimp only
  rw [h4]; rfl

/-- ... or fails. -/
theorem roundTrip_failed {o o' : OutgoingRequest c σ} {writes : List WCall} {sizes : List Nat} {s1 s2 : σ} {e : Err}
    (h1 : perform o writes = (true, o')) (h2 : o'.complete = .ok s1)
    (h3 : HttpResponse.deserialize c s1 = (.err e, s2)) : roundTrip writes sizes o = (.failed e, s2) := by
  have hfin : o'.finish = (.err e, s2) := by unfold OutgoingRequest.finish; rw [h2]; exact h3
  unfold roundTrip
  rw [h1]; dsimp only
  rw [hfin]

/-- Everything about the connection but what is pending survives reading a response. -/
theorem body_kept {P : σ → Prop} {idle : List Ev} (hP : ∀ s n, P s → idle <:+ trace (read s n).2 → P (read s n).2)
    {s1 s2 : σ} {r : HttpResponse c (BufReader c σ)} {s3 : BufReader c σ} {sizes : List Nat} (hs : P s1)
    (hw : sent s1 = wire s1) (h3 : HttpResponse.deserialize c s1 = (.ok r, s2))
    (h4 : (calls r.body sizes).2.under = some s3) :
    PeerSocket.peer s3.inner = PeerSocket.peer s1 ∧ wire s3.inner = wire s1 ∧ sent s3.inner = wire s1 ∧
      (idle <:+ trace s3.inner → P s3.inner) := by
  have hkeep := peer_readKept hP (PeerSocket.peer s1) (wire s1) (wire s1)
  have m1 := hkeep.response (c := c) (s := s1) ⟨rfl, rfl, hw, fun _ => hs⟩
  rw [h3] at m1
  have m2 := (hkeep.bufReader (c := c)).body (c := c)
  have m3 : (r.body).All fun x : BufReader c σ => PeerSocket.peer x.inner = PeerSocket.peer s1 ∧ wire x.inner = wire s1 ∧
      sent x.inner = wire s1 ∧ (idle <:+ trace x.inner → P x.inner) := by
    obtain ⟨_, enc, len, hnew⟩ := response_under h3
    rw [hnew]; exact HttpBody.All.new m1
  exact (m2.calls (sizes := sizes) m3).under h4

/-- With `std`, if reads with a large buffer do not stop at the end of a chunked body, it is not left. -/
theorem body_together {P : σ → Prop} {idle : List Ev} (hc : c.std = true) (htog : Together P idle)
    (hP : ∀ s n, P s → idle <:+ trace (read s n).2 → P (read s n).2)
    {s1 s2 : σ} {r : HttpResponse c (BufReader c σ)} {s3 : BufReader c σ} {sizes : List Nat} (hs : P s1)
    (hw : sent s1 = wire s1) (h3 : HttpResponse.deserialize c s1 = (.ok r, s2)) (h2 : NotCrLf idle (trace s2))
    (h4 : (calls r.body sizes).2.under = some s3) (hi : idle <:+ trace s3.inner) : NotCrLf idle (trace s3.inner) := by
  have hkeep := peer_readKept hP (PeerSocket.peer s1) (wire s1) (wire s1)
  have m1 := hkeep.response (c := c) (s := s1) ⟨rfl, rfl, hw, fun _ => hs⟩
  rw [h3] at m1
  have m2 : ReadKept fun x : BufReader c σ => idle <:+ trace x.inner → P x.inner ∧ NotCrLf idle (trace x.inner) :=
    ReadKept.bufReader_large (P := fun x : σ => idle <:+ trace x → P x ∧ NotCrLf idle (trace x)) hc fun s n hn h hi =>
      have h' := h (hi.trans (read_suffix s n))
      ⟨hP s n h'.1 hi, htog s n hn h'.1 h'.2⟩
  have m3 : (r.body).All fun x : BufReader c σ => idle <:+ trace x.inner → P x.inner ∧ NotCrLf idle (trace x.inner) := by
    obtain ⟨_, enc, len, hnew⟩ := response_under h3
    rw [hnew]; exact HttpBody.All.new fun hi => ⟨m1.2.2.2 hi, h2⟩
  exact (((m2.body (c := c)).calls (sizes := sizes) m3).under h4 hi).2

/-- One request and its response, all read: the caller gets the answer, and the connection is left with nothing
pending but what the idle peer gives. -/
theorem roundTrip_answered {P : σ → Prop} (hr : Reliable c P) (idle : List Ev)
    (hP : ∀ s n, P s → idle <:+ trace (read s n).2 → P (read s n).2) (hidle : ∀ b t, idle ≠ .byte b :: t)
    {κ : Type} {said : κ → List Ev → Prop} {pr : Bytes → List Ev} {got : List Ev} {w : Bytes} {s : σ}
    (hs : Rests P pr idle [] got w s) (q : Ask) (hq : q.Proper) (k : κ) (a : Answer) (ha : a.Proper)
    (hsaid : ∀ evs, said k evs → a.Sent c evs)
    (hsizes : Positive q.sizes) (hlen : a.body.length ≤ q.sizes.length) (rest : List (Ask × κ))
    (hserves : Serves said pr idle w got ((q, k) :: rest)) :
    ∃ b o s' st rs got' w', HttpRequestBuilder.new c (HttpUrl.tryFrom q.url) (if q.put then .Put else .Get) = .ok b ∧
      b.send s = .ok o ∧ roundTrip q.writes q.sizes o = (.got st a.headers rs, s') ∧
      st = HttpStatus.fromCode a.status.toCode ∧ ReadAll rs a.body ∧
      Rests P pr idle [] got' w' s' ∧ Serves said pr idle w' got' rest := by
  obtain ⟨rfl, rfl⟩ : pr = PeerSocket.peer s ∧ w = wire s := ⟨hs.peer.symm, hs.wire.symm⟩
  obtain ⟨b, o, o', s1, bytes, evs, h1, h2, h3, h4, h6, h7, h8, h9, g1, g2, htr, g4⟩ :=
    request_heard hr s hs.fine hs.flushed q hq hs.taken hserves
  obtain ⟨hd, g2, g3⟩ := hsaid _ g2
  obtain ⟨pre, e1, e2⟩ := g3.suffix
  rw [List.append_nil] at e1
  have hdel : Delivers c (trace s1) (responseHead a.status.display a.headers.entries) (a.body.map .byte ++ idle) := by
    rw [htr, g2, e1, List.nil_append, List.append_assoc]; exact e2 _
  obtain ⟨r, s2, f1, f2, _, f3, f4, f5, f6⟩ := response_delivered c s1 a.status a.headers _ ha.sendable
    (FramedBy.lengthOk ha.sendable.1 ha.framed) hdel
  have hfr := framedBy_unique ha.sendable.1 f4 ha.framed
  have hbody : r.body = .Limited ⟨BufReader.new c s2, a.body.length⟩ := by
    cases hb : r.body with
    | Chunked i => rw [hb] at hfr; simp [framing] at hfr
    | ReadTilClose i => rw [hb] at hfr; simp [framing] at hfr
    | Limited t =>
      rw [hb] at hfr f5
      obtain ⟨i, l⟩ := t
      simp only [framing, Framing.limited.injEq] at hfr
      simp only [HttpBody.under, Option.some.injEq] at f5
      rw [hfr, f5]
  obtain ⟨k1, s3, k2, k3⟩ := limited_read (c := c) (BufReader.new c s2) a.body idle (by rw [BufReader.trace_new, f6])
    q.sizes hsizes hlen
  rw [← hbody] at k1 k2
  obtain ⟨left, l1, l2, _⟩ := bufReader_left s3 [] idle hidle k3
  rw [List.suffix_nil.1 l1] at l2
  have hkept := body_kept hP h8 h7 f1 k2
  rw [h9] at hkept
  exact ⟨b, o, s3.inner, r.status, _, got ++ evs, _, h1, h2, by rw [roundTrip_got h3 h4 f1 k2, f3], f2, k1,
    rests_of_read hkept l2 g1, g4⟩

theorem deliversChunked_suffix {t t' : List Ev} {chs : List Chunk} {last : Bytes} (h : DeliversChunked c t chs last t') :
    ∃ pre, t = pre ++ t' ∧ ∀ u, DeliversChunked c (pre ++ u) chs last u := by
  induction h with
  | last h =>
    obtain ⟨pre, h1, h2⟩ := h.suffix
    exact ⟨pre, h1, fun u => .last (h2 u)⟩
  | @chunk t t1 t2 rest ch chs last h1 h2 h3 ih =>
    obtain ⟨p1, a1, a2⟩ := h1.suffix
    obtain ⟨p2, b1, b2⟩ := h2.suffix
    obtain ⟨p3, c1, c2⟩ := ih
    refine ⟨p1 ++ ch.data.map .byte ++ p2 ++ p3, by rw [a1, b1, c1]; simp, fun u => ?_⟩
    refine .chunk (t1 := p2 ++ (p3 ++ u)) ?_ (b2 _) (c2 u)
    have := a2 (ch.data.map .byte ++ (p2 ++ (p3 ++ u)))
    simpa using this

theorem deliversChunked_ne_nil {t t' : List Ev} {chs : List Chunk} {last : Bytes} (h : DeliversChunked c t chs last t') :
    t ≠ [] := by
  rintro rfl
  have hne : ∀ (bs : Bytes) u, ¬ Delivers c [] (bs ++ [13, 10]) u := by
    intro bs u h
    cases bs <;> cases h
  cases h with
  | last h => exact hne _ _ h
  | chunk h => exact hne _ _ h

/-- A chunked response that is heard: what the body gives, and what is left of it on the connection when its end was
reported. -/
theorem chunked_heard (a : ChunkedAnswer) (ha : a.Proper) {s1 : σ} {evs idle : List Ev} (htr : trace s1 = evs ++ idle)
    (hsent : a.Sent c evs) :
    ∃ r s2, HttpResponse.deserialize c s1 = (.ok r, s2) ∧ r.status = HttpStatus.fromCode a.status.toCode ∧
      r.headers = a.headers ∧ trace r.body = (chunkedData a.chunks).map .byte ∧ Yields r.body (chunkedData a.chunks) ∧
      ∀ sizes, Positive sizes → .ok [] ∈ (calls r.body sizes).1 → ∀ P : σ → Prop,
        (∀ s n, P s → idle <:+ trace (read s n).2 → P (read s n).2) → (∀ b t, idle ≠ .byte b :: t) → P s1 →
        sent s1 = wire s1 → ∃ s3 left, (calls r.body sizes).2.under = some s3 ∧ left <:+ [13, 10] ∧
          trace s3.inner = left.map .byte ++ idle ∧ (c.std = false → left = [13, 10]) ∧
          (c.std = true → Together P idle → left = []) := by
  obtain ⟨hd, body, g2, g3, g5⟩ := hsent
  obtain ⟨pre, e1, e2⟩ := g3.suffix
  obtain ⟨pre', e3, e4⟩ := deliversChunked_suffix g5
  rw [List.append_nil] at e1 e3
  have hdel : Delivers c (trace s1) (responseHead a.status.display a.headers.entries)
      (body ++ ([13, 10].map .byte ++ idle)) := by
    rw [htr, g2, e1, List.append_assoc, List.append_assoc]; exact e2 _
  obtain ⟨r, s2, f1, f2, _, f3, f4, f5, f6⟩ := response_delivered c s1 a.status a.headers _ ha.sendable ha.length hdel
  have hfr := framedBy_unique ha.sendable.1 f4 ha.framed
  obtain ⟨_, enc, len, hnew⟩ := response_under f1
  have hbody : r.body = HttpBody.new c (some b!"chunked") len (BufReader.new c s2) := by
    rw [hnew] at hfr ⊢
    unfold HttpBody.new at hfr ⊢
    by_cases henc : enc = some b!"chunked"
    · rw [henc]
    · rw [if_neg henc] at hfr
      cases len <;> simp [framing] at hfr
  have hdc : DeliversChunked c (trace (BufReader.new c s2)) a.chunks a.last ([13, 10].map .byte ++ idle) := by
    rw [BufReader.trace_new, f6, e3]; exact e4 _
  obtain ⟨d1, d2⟩ := C24_decode c len (BufReader.new c s2) a.chunks a.last ([13, 10].map .byte ++ idle) ha.chunks ha.last hdc
  have htb : trace r.body = (chunkedData a.chunks).map .byte := by
    rw [hbody, chunked_new, HttpBody.trace_chunked, HttpChunkedBody.trace_new]
    exact (enc_of_delivers hdc ha.last fun ch h => (ha.chunks ch h).1).trace []
  rw [← hbody] at d1 d2
  refine ⟨r, s2, f1, f2, f3, htb, d1, fun sizes hsizes hend P hP hidle h8 h7 => ?_⟩
  obtain ⟨s3, k2, k3⟩ := d2 sizes hsizes hend
  obtain ⟨left, l1, l2, l3⟩ := bufReader_left s3 [13, 10] idle hidle k3
  refine ⟨s3, left, k2, l1, l2, l3, fun hc htog => ?_⟩
  have hne : body ≠ [] := fun h => by
    rw [h] at g5
    exact deliversChunked_ne_nil g5 rfl
  have hlt : (trace s2).length > 2 + idle.length := by
    rw [f6]
    have := List.length_pos_iff.2 hne
    simp; omega
  have := body_together hc htog hP h8 h7 f1 ⟨fun h => by rw [h] at hlt; simp at hlt; omega, fun h => by
    rw [h] at hlt; simp at hlt; omega⟩ k2 (by rw [l2]; exact List.suffix_append _ _)
  rw [l2] at this
  obtain ⟨t, ht⟩ := l1
  match t, left, ht with
  | [], l, ht => simp only [List.nil_append] at ht; subst ht; exact absurd rfl this.1
  | [_], l, ht => simp at ht; obtain ⟨_, rfl⟩ := ht; exact absurd rfl this.2
  | [_, _], l, ht => simp at ht; exact ht.2.2
  | _ :: _ :: _ :: _, l, ht => simp at ht

/-- The same for a chunked response: the CR LF with which the body ends, or the end of it, may be left. -/
theorem roundTrip_chunked {P : σ → Prop} (hr : Reliable c P) (idle : List Ev)
    (hP : ∀ s n, P s → idle <:+ trace (read s n).2 → P (read s n).2) (hidle : ∀ b t, idle ≠ .byte b :: t)
    {κ : Type} {said : κ → List Ev → Prop} {pr : Bytes → List Ev} {got : List Ev} {w : Bytes} {s : σ}
    (hs : Rests P pr idle [] got w s) (q : Ask) (hq : q.Proper) (k : κ) (a : ChunkedAnswer) (ha : a.Proper)
    (hsaid : ∀ evs, said k evs → a.Sent c evs)
    (hsizes : Positive q.sizes) (hlen : (chunkedData a.chunks).length < q.sizes.length) (rest : List (Ask × κ))
    (hserves : Serves said pr idle w got ((q, k) :: rest)) :
    ∃ b o s' st rs left got' w', HttpRequestBuilder.new c (HttpUrl.tryFrom q.url) (if q.put then .Put else .Get) = .ok b ∧
      b.send s = .ok o ∧ roundTrip q.writes q.sizes o = (.got st a.headers rs, s') ∧
      st = HttpStatus.fromCode a.status.toCode ∧ ReadAll rs (chunkedData a.chunks) ∧
      left <:+ [13, 10] ∧ (c.std = false → left = [13, 10]) ∧ (c.std = true → Together P idle → left = []) ∧
      Rests P pr idle (left.map .byte) got' w' s' ∧ Serves said pr idle w' got' rest := by
  obtain ⟨rfl, rfl⟩ : pr = PeerSocket.peer s ∧ w = wire s := ⟨hs.peer.symm, hs.wire.symm⟩
  obtain ⟨b, o, o', s1, bytes, evs, h1, h2, h3, h4, h6, h7, h8, h9, g1, g2, htr, g4⟩ :=
    request_heard hr s hs.fine hs.flushed q hq hs.taken hserves
  obtain ⟨r, s2, f1, f2, f3, _, d1, d2⟩ := chunked_heard a ha (by rw [htr, List.nil_append]) (hsaid _ g2)
  obtain ⟨rs, n, d3, d4⟩ : ∃ rs k, (calls r.body q.sizes).1 = rs ++ List.replicate (k + 1) (.ok []) ∧
      Pieces rs (chunkedData a.chunks) := by
    rcases d1 q.sizes hsizes with ⟨p, _, _, h⟩ | h
    · omega
    · exact h
  obtain ⟨s3, left, k2, l1, l2, l3, hnone⟩ := d2 q.sizes hsizes (by rw [d3]; simp) P hP hidle h8 h7
  have hkept := body_kept hP h8 h7 f1 k2
  rw [h9] at hkept
  exact ⟨b, o, s3.inner, r.status, _, left, got ++ evs, _, h1, h2, by rw [roundTrip_got h3 h4 f1 k2, f3], f2,
    ⟨rs, n + 1, d3, d4⟩, l1, l3, hnone, rests_of_read hkept l2 g1, g4⟩

end

end HttpIo
