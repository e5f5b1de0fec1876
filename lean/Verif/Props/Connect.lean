import Verif.Props.Pool
import Verif.Lemmas.Kept
import Verif.Lemmas.ReadKept
import Verif.Lemmas.Script

/-! C48: pooled connections that the peer has closed. C49: TLS. -/

namespace HttpIo
open Spec

section
variable {c : Cfg} {σ : Type} [LawfulReader σ] [Writer σ] {D : σ → Prop}

theorem Spec.Closed.kept (h : Closed D) : Kept D := ⟨h.write, h.flush, h.writeAll⟩
theorem Spec.Closed.readKept (h : Closed D) : ReadKept D := ⟨h.read⟩

theorem Spec.Closed.bytesNext (h : Closed D) {s : σ} (hs : D s) (b : UInt8) : (bytesNext c s).1 ≠ some (.ok b) := by
  fun_induction HttpIo.bytesNext c s with
  | case1 s s1 hr => simp
  | case2 s b' bs s1 hr =>
    have := h.nothing s 1 (b' :: bs) hs (by rw [hr])
    simp at this
  | case3 s e s1 hr hret ih => have := h.read s 1 hs; rw [hr] at this; exact ih this
  | case4 s e s1 hr hret => simp

theorem Spec.Closed.innerNext (h : Closed D) {s : σ} (hs : D s) : ∃ e, (innerNext c s).1 = .error e := by
  have hb := h.bytesNext (c := c) hs
  unfold HttpIo.innerNext innerNextLoop
  split
  · exact ⟨_, rfl⟩
  · exact ⟨_, rfl⟩
  · next b s' heq => exact absurd (by rw [heq]) (hb b)

variable [CaseMap] [ZeroReader σ]

omit [ZeroReader σ] in
theorem Spec.Closed.response (h : Closed D) {s : σ} (hs : D s) :
    ∃ e, (HttpResponse.deserialize c s).1 = .err e ∧ D (HttpResponse.deserialize c s).2 := by
  obtain ⟨e, he⟩ := h.innerNext (c := c) hs
  have hk := h.readKept.expectNext (c := c) hs
  unfold HttpResponse.deserialize parseHead
  have : (expectNext c s).1 = .error e := by
    unfold expectNext
    rcases hi : HttpIo.innerNext c s with ⟨_ | _ | _, s1⟩ <;> rw [hi] at he <;> simp_all
  rcases hx : expectNext c s with ⟨r, s1⟩
  rw [hx] at this hk
  simp only at this
  subst this
  exact ⟨e, rfl, hk⟩

theorem Spec.Closed.roundTrip (h : Closed D) {o : OutgoingRequest c σ} (ho : D o.socketOf) (writes : List WCall)
    (sizes : List Nat) :
    ((roundTrip writes sizes o).1 = .unsent ∨ ∃ e, (roundTrip writes sizes o).1 = .failed e) ∧
      D (roundTrip writes sizes o).2 := by
  have hp := h.kept.outgoing.perform (cs := writes) ho
  unfold Spec.roundTrip
  rcases hx : perform o writes with ⟨_ | _, o'⟩ <;> rw [hx] at hp <;> dsimp only at hp ⊢
  · exact ⟨.inl rfl, h.kept.droppedRequest hp⟩
  · have hc := h.kept.complete hp
    unfold OutgoingRequest.finish
    rcases hco : o'.complete with ⟨e, s⟩ | s <;> rw [hco] at hc <;> dsimp only at hc ⊢
    · exact ⟨.inr ⟨_, rfl⟩, hc⟩
    · obtain ⟨e, h1, h2⟩ := h.response (c := c) hc
      rcases hd : HttpResponse.deserialize c s with ⟨r, s'⟩
      rw [hd] at h1 h2
      simp only at h1
      subst h1
      exact ⟨.inr ⟨_, rfl⟩, h2⟩

end

section
variable [CaseMap] {c : Cfg} {ω α σ : Type} [DecidableEq α] [LawfulReader σ] [ZeroReader σ] [Writer σ] {D : σ → Prop}

omit [CaseMap] [DecidableEq α] [LawfulReader σ] [ZeroReader σ] [Writer σ] in
theorem logged_addr_eq {N : StreamConnector ω α σ} {u : Url} {w : ω × List (α × Bool)} {r : Res α} {w1 : ω}
    (h : N.toStreamAddr u w.1 = (r, w1)) : (logged N).toStreamAddr u w = (r, w1, w.2) := by
  show ((N.toStreamAddr u w.1).1, (N.toStreamAddr u w.1).2, w.2) = _
  rw [h]

/-- One request over a closed pooled connection. -/
theorem closed_exchange (N : StreamConnector ω α σ) (hD : Closed D) (q : Ask) (cl : HttpClient α σ)
    (w : ω × List (α × Bool)) (a : α) (w1 : ω) (hr : N.toStreamAddr q.url w.1 = (.ok a, w1)) (s : σ)
    (hp : poolGet a cl.streams = some s) (hs : D s) :
    (exchange (c := c) (logged N) q.exchange cl w).2.2.2 = w.2 ∧
    (∀ st h rs, (exchange (c := c) (logged N) q.exchange cl w).1 ≠ .ok (.got st h rs)) ∧
    ∃ s', poolGet a (exchange (c := c) (logged N) q.exchange cl w).2.1.streams = some s' ∧ D s' := by
  cases hb : HttpRequestBuilder.new c (HttpUrl.tryFrom q.url) (if q.put then .Put else .Get) with
  | ok b =>
    have hl : (logged N).toStreamAddr q.url w = (.ok a, w1, w.2) := logged_addr_eq hr
    obtain ⟨cl', h1, h2, _⟩ := exchange_on (logged N) (q.exchange (c := c)) cl w (w1, w.2) (w1, w.2) q.url b rfl hb a s hl
      (.inl ⟨hp, rfl⟩)
    rw [h1]
    have hk := hD.kept.serialize (c := c) (r := b.request) hs
    unfold HttpRequestBuilder.send at h2 ⊢
    rcases hser : b.request.serialize (BufWriter.new c s) with ⟨e, s'⟩ | o <;> rw [hser] at hk h2 <;> dsimp only at hk h2 ⊢
    · exact ⟨rfl, by simp, s', h2, hk⟩
    · obtain ⟨h3, h4⟩ := hD.roundTrip hk q.writes q.sizes
      refine ⟨rfl, ?_, _, h2, h4⟩
      intro st h rs heq
      simp only [Res.ok.injEq] at heq
      replace heq : (roundTrip q.writes q.sizes o).1 = _ := heq
      rcases h3 with h3 | ⟨e, h3⟩ <;> rw [h3] at heq <;> simp at heq
  | err e =>
    have : exchange (c := c) (logged N) q.exchange cl w = (.err e, cl, w) := by
      rw [exchange_eq]; unfold HttpClient.request Ask.exchange; dsimp only; rw [hb]
    rw [this]; exact ⟨rfl, by simp, s, hp, hs⟩
  | panic =>
    have : exchange (c := c) (logged N) q.exchange cl w = (.panic, cl, w) := by
      rw [exchange_eq]; unfold HttpClient.request Ask.exchange; dsimp only; rw [hb]
    rw [this]; exact ⟨rfl, by simp, s, hp, hs⟩

/-- Once the peer has closed the pooled connection of an address, no later request to that address, whatever their
number and whatever they send, is answered; and no connection is ever attempted again. -/
theorem C48_never_replaced (N : StreamConnector ω α σ) (hD : Closed D) (qs : List Ask) (cl : HttpClient α σ)
    (w : ω × List (α × Bool)) (a : α) (hr : ∀ q ∈ qs, ∀ w, ∃ w1, N.toStreamAddr q.url w = (.ok a, w1)) (s : σ)
    (hp : poolGet a cl.streams = some s) (hs : D s) :
    (history (c := c) (logged N) (qs.map Ask.exchange) cl w).2.2.2 = w.2 ∧
    ∀ r ∈ (history (c := c) (logged N) (qs.map Ask.exchange) cl w).1, ∀ st h rs, r ≠ .ok (.got st h rs) := by
  induction qs generalizing cl w s with
  | nil => exact ⟨rfl, by simp [history]⟩
  | cons q qs ih =>
    obtain ⟨w1, hw1⟩ := hr q (by simp) w.1
    obtain ⟨h1, h2, s', h3, h4⟩ := closed_exchange (c := c) N hD q cl w a w1 hw1 s hp hs
    obtain ⟨h5, h6⟩ := ih (exchange (c := c) (logged N) q.exchange cl w).2.1 (exchange (c := c) (logged N) q.exchange cl w).2.2
      (fun q hq => hr q (by simp [hq])) s' h3 h4
    rw [List.map_cons]
    unfold history
    refine ⟨h5.trans h1, ?_⟩
    intro r hr'
    rcases List.mem_cons.1 hr' with rfl | hm
    · exact h2
    · exact h6 r hm

omit [LawfulReader σ] [ZeroReader σ] in
/-- What holds instead of C48: a request for an address without pooled connection (none was opened yet, or every
attempt failed) makes exactly one attempt for that address. Missing: an attempt when the pooled connection is closed. -/
theorem C48_connect_partial {β : Type} (N : StreamConnector ω α σ) (x : Exchange c σ β) (cl : HttpClient α σ)
    (w : ω × List (α × Bool)) (u : Url) (hu : x.url = some u) (ha : AsciiText u.scheme)
    (hs : PlainHttp u ∨ SecureHttp u) (hh : u.host ≠ none) (a : α) (w1 : ω)
    (hr : N.toStreamAddr u w.1 = (.ok a, w1)) (hp : poolGet a cl.streams = none) :
    ∃ ok, (exchange (logged N) x cl w).2.2.2 = w.2 ++ [(a, ok)] ∧ (ok = true ↔ ∃ s w2, N.connect a w1 = (.ok s, w2)) := by
  obtain ⟨h, hh⟩ := Option.ne_none_iff_exists'.1 hh
  obtain ⟨v, h1, _⟩ := HttpUrl.tryFrom_ok ha hs hh
  obtain ⟨b, h2, _⟩ := HttpRequestBuilder.new_ok c ⟨u, v, h⟩ (if x.put then .Put else .Get)
  have hb : HttpRequestBuilder.new c (HttpUrl.tryFrom u) (if x.put then .Put else .Get) = .ok b := by rw [h1]; exact h2
  have hl : (logged N).toStreamAddr u w = (.ok a, w1, w.2) := logged_addr_eq hr
  rcases hc : N.connect a w1 with ⟨s | e | _, w2⟩
  · have hlc : (logged N).connect a (w1, w.2) = (.ok s, w2, w.2 ++ [(a, true)]) := by unfold logged; dsimp only; rw [hc]
    obtain ⟨cl', h3, _⟩ := exchange_on (logged N) x cl w _ _ u b hu hb a s hl (.inr ⟨hp, hlc⟩)
    exact ⟨true, by rw [h3], by simp⟩
  · have hlc : (logged N).connect a (w1, w.2) = (.err e, w2, w.2 ++ [(a, false)]) := by unfold logged; dsimp only; rw [hc]
    rw [exchange_connect_failed (logged N) x cl w _ _ u b hu hb a e hl hp hlc]
    exact ⟨false, rfl, by simp⟩
  · have hlc : (logged N).connect a (w1, w.2) = (.panic, w2, w.2 ++ [(a, false)]) := by unfold logged; dsimp only; rw [hc]
    have : exchange (logged N) x cl w = (.panic, cl, w2, w.2 ++ [(a, false)]) := by
      rw [exchange_eq]; unfold HttpClient.request HttpClient.getStream
      rw [hu]; dsimp only; rw [hb]; dsimp only; rw [hl]; dsimp only; rw [hp]; dsimp only; rw [hlc]
    rw [this]
    exact ⟨false, rfl, by simp⟩

end

/-- Connections that can be written but whose peer has closed: nothing is left to read. -/
theorem duplex_closed : Closed fun s : Duplex Wire Sink => s.rd.evs = [] where
  nothing s n bs hs h := by
    rw [Duplex.read_def] at h
    obtain ⟨⟨evs⟩, wr⟩ := s
    dsimp only at hs; subst hs
    have : (read (⟨[]⟩ : Wire) n).1 = .ok [] := rfl
    rw [this] at h
    simpa using h.symm
  read s n hs := by
    rw [Duplex.read_def]
    obtain ⟨⟨evs⟩, wr⟩ := s
    dsimp only at hs; subst hs
    rfl
  write s buf hs := hs
  flush s hs := hs
  writeAll c s buf hs := hs

/-- C48 fails: a closed pooled connection, and a proper request to its address that does not open a new one. -/
theorem C48_replaced_false [CaseMap] (c : Cfg) :
    ¬ ∀ (N : StreamConnector Unit Unit (Duplex Wire Sink)) (D : Duplex Wire Sink → Prop) (q : Ask)
        (cl : HttpClient Unit (Duplex Wire Sink)) (log : List (Unit × Bool)) (s : Duplex Wire Sink),
      Closed D → q.Proper → (∀ w, N.toStreamAddr q.url w = (.ok (), w)) → poolGet () cl.streams = some s → D s →
      ∃ ok, (exchange (c := c) (logged N) q.exchange cl ((), log)).2.2.2 = log ++ [((), ok)] := by
  intro h
  let s : Duplex Wire Sink := ⟨⟨[]⟩, ⟨[], 0, []⟩⟩
  let N : StreamConnector Unit Unit (Duplex Wire Sink) := ⟨fun _ w => (.ok s, w), fun _ w => (.ok (), w)⟩
  obtain ⟨ok, h1⟩ := h N _ (sampleAsk []) ⟨[((), s)]⟩ [] s duplex_closed
    { ascii := by unfold sampleAsk; dsimp only; rw [← isAscii_iff]; decide
      scheme := .inr (by unfold SecureHttp sampleAsk; rw [utf8_https]; exact sameText_refl _)
      host := ⟨_, rfl⟩
      small := by simp [written, sampleAsk]
      bodiless := fun _ => rfl } (fun w => rfl) rfl rfl
  rw [(closed_exchange (c := c) N duplex_closed (sampleAsk []) ⟨[((), s)]⟩ ((), []) () () rfl s rfl rfl).1] at h1
  simp at h1

/-- Witness: any number of requests to an address whose pooled connection is closed. -/
example (n : Nat) : let _ := asciiCase
    let s : Duplex Wire Sink := ⟨⟨[]⟩, ⟨[], 0, []⟩⟩
    let N : StreamConnector Unit Unit (Duplex Wire Sink) := ⟨fun _ w => (.ok s, w), fun _ w => (.ok (), w)⟩
    let cl : HttpClient Unit (Duplex Wire Sink) := ⟨[((), s)]⟩
    let w : Unit × List (Unit × Bool) := ((), [])
    let qs := List.replicate n (sampleAsk [10])
    (history (c := ⟨true⟩) (logged N) (qs.map Ask.exchange) cl w).2.2.2 = w.2 ∧
    ∀ r ∈ (history (c := ⟨true⟩) (logged N) (qs.map Ask.exchange) cl w).1, ∀ st h rs, r ≠ .ok (.got st h rs) := by
  intro _ s N cl w qs
  exact @C48_never_replaced asciiCase ⟨true⟩ Unit Unit (Duplex Wire Sink) _ _ _ _ (fun s => s.rd.evs = []) N duplex_closed
    qs cl w () (fun _ _ w => ⟨w, rfl⟩) s rfl rfl

/-- Witness: the address has no pooled connection. -/
example : let _ := asciiCase
    let s : Duplex Wire Sink := ⟨⟨[]⟩, ⟨[], 0, []⟩⟩
    let N : StreamConnector Unit Unit (Duplex Wire Sink) := ⟨fun _ w => (.ok s, w), fun _ w => (.ok (), w)⟩
    ∃ ok, (exchange (c := ⟨true⟩) (logged N) (sampleAsk [10]).exchange HttpClient.new ((), [])).2.2.2 = [] ++ [((), ok)] ∧
      (ok = true ↔ ∃ s w2, N.connect () () = (.ok s, w2)) := by
  intro _ s N
  exact @C48_connect_partial asciiCase ⟨true⟩ _ _ _ _ _ _ N (sampleAsk [10]).exchange HttpClient.new ((), []) sampleUrl rfl
    (by rw [← isAscii_iff]; decide)
    (.inr (by unfold SecureHttp; rw [utf8_https]; exact sameText_refl _)) (by simp [sampleUrl]) () () rfl rfl

/-! ### C49 -/

section
variable {c : Cfg} {σ : Type} [LawfulReader σ] [Writer σ] {P : σ → Prop}

theorem roundTrip_kept [CaseMap] [ZeroReader σ] (hk : Kept P) (hr : ReadKept P) {o : OutgoingRequest c σ} (ho : P o.socketOf)
    (writes : List WCall) (sizes : List Nat) : P (roundTrip writes sizes o).2 := by
  have hp := hk.outgoing.perform (cs := writes) ho
  unfold Spec.roundTrip
  rcases hx : perform o writes with ⟨_ | _, o'⟩ <;> rw [hx] at hp <;> dsimp only at hp ⊢
  · exact hk.droppedRequest hp
  · have hc := hk.complete hp
    unfold OutgoingRequest.finish
    rcases hco : o'.complete with ⟨e, s⟩ | s <;> rw [hco] at hc <;> dsimp only at hc ⊢
    · exact hc
    · have h1 := hr.response (c := c) hc
      rcases hd : HttpResponse.deserialize c s with ⟨r | _ | _, s'⟩ <;> rw [hd] at h1 <;> dsimp only at h1 ⊢
      · obtain ⟨_, enc, len, hnew⟩ := response_under hd
        have h2 : r.body.All fun b => P b.inner := by rw [hnew]; exact HttpBody.All.new h1
        have h3 := (hr.bufReader (c := c)).body.calls (sizes := sizes) h2
        cases hu : (calls r.body sizes).2.under with
        | none => exact h1
        | some b => exact h3.under hu
      · exact h1
      · exact h1

theorem Spec.Ask.confined [CaseMap] [ZeroReader σ] (q : Ask) : (q.exchange (c := c) (σ := σ)).Confined := by
  intro P h1 h2 h3 h4 o ho
  exact roundTrip_kept ⟨h2, h3, h4⟩ ⟨h1⟩ (by cases o <;> exact ho) _ _

end

section
variable [CaseMap] {ω α σ τ : Type}

theorem toStreamAddr_ok {net : Net ω α σ τ} {u : Url} {w w1 : ω} {id : StreamId α} (hl : LowerScheme u)
    (h : net.toStreamAddr u w = (.ok id, w1)) :
    Resolves net u w id.addr ∧ u.host = some id.host ∧ (id.secure = true ↔ SecureHttp u) ∧ (id.secure = false ↔ PlainHttp u) := by
  unfold Net.toStreamAddr at h
  cases ht : HttpUrl.tryFrom u with
  | err e => rw [ht] at h; simp at h
  | panic => rw [ht] at h; simp at h
  | ok v =>
    rw [ht] at h
    obtain ⟨p, h1, h2, h3, h4, h5, h6⟩ := C40_port u v hl ht
    dsimp only at h
    rw [h1] at h
    dsimp only at h
    have hv := (HttpUrl.tryFrom_inv ht).2.2
    rcases hk : net.lookup v.host p w with ⟨_ | _ | ⟨a, rest⟩, w'⟩ <;> rw [hk] at h <;>
      simp only [Prod.mk.injEq, Res.ok.injEq, reduceCtorEq, false_and] at h
    rw [← h.1]
    refine ⟨⟨v.host, p, rest, w', h4, fun q hq => h2 q hq, h3, hk⟩, h4, ?_, ?_⟩
    · rw [← h6]; simp
    · rw [← h5]
      rcases hv with ⟨hv, _⟩ | ⟨hv, _⟩ <;> rw [hv] <;> simp

/-- Two URLs have the same pooled connection if and only if they resolve to the same address, name the same host, and
are both https or both http. -/
theorem C49_shared (net : Net ω α σ τ) (u u' : Url) (hl : LowerScheme u) (hl' : LowerScheme u') (w w1 w' w1' : ω)
    (id id' : StreamId α) (h : net.toStreamAddr u w = (.ok id, w1)) (h' : net.toStreamAddr u' w' = (.ok id', w1')) :
    id = id' ↔ (∃ a, Resolves net u w a ∧ Resolves net u' w' a) ∧ u.host = u'.host ∧ (SecureHttp u ↔ SecureHttp u') := by
  obtain ⟨h1, h2, h3, _⟩ := toStreamAddr_ok hl h
  obtain ⟨h1', h2', h3', _⟩ := toStreamAddr_ok hl' h'
  have huniq : ∀ {u : Url} {w : ω} {a a' : α}, LowerScheme u → Resolves net u w a → Resolves net u w a' → a = a' := by
    rintro u w a a' hl ⟨host, port, rest, w1, e1, e2, e3, e4⟩ ⟨host', port', rest', w1', f1, f2, f3, f4⟩
    rw [e1] at f1
    simp only [Option.some.injEq] at f1
    subst f1
    have hpp : port = port' := by
      cases hp : u.port with
      | some p => rw [e2 p hp, f2 p hp]
      | none =>
        have ha : AsciiText u.scheme := fun b hb => (hl b hb).1
        have hplain : PlainHttp u ↔ CaseMap.lower u.scheme = b!"http" := by
          unfold PlainHttp; rw [utf8_http]; exact sameText_lower ha _ (by decide) (by decide)
        have hsec : SecureHttp u ↔ CaseMap.lower u.scheme = b!"https" := by
          unfold SecureHttp; rw [utf8_https]; exact sameText_lower ha _ (by decide) (by decide)
        rcases e3 hp with ⟨g1, rfl⟩ | ⟨g1, rfl⟩ <;> rcases f3 hp with ⟨g2, rfl⟩ | ⟨g2, rfl⟩
        · rfl
        · rw [hplain] at g1; rw [hsec, g1] at g2; exact absurd g2 (by decide)
        · rw [hsec] at g1; rw [hplain, g1] at g2; exact absurd g2 (by decide)
        · rfl
    subst hpp
    rw [e4] at f4
    simp only [Prod.mk.injEq, Except.ok.injEq, List.cons.injEq] at f4
    exact f4.1.1
  constructor
  · rintro rfl
    exact ⟨⟨_, h1, h1'⟩, by rw [h2, h2'], by rw [← h3, ← h3']⟩
  · rintro ⟨⟨a, g1, g1'⟩, g2, g3⟩
    have ea : id.addr = id'.addr := (huniq hl h1 g1).trans (huniq hl' g1' h1')
    have eh : id.host = id'.host := by rw [h2, h2'] at g2; simpa using g2
    have es : id.secure = id'.secure := by
      rw [← h3, ← h3'] at g3
      cases hs : id.secure <;> cases hs' : id'.secure <;> rw [hs, hs'] at g3 <;> simp at g3 ⊢
    obtain ⟨a1, b1, c1⟩ := id
    obtain ⟨a2, b2, c2⟩ := id'
    dsimp only at ea eh es
    rw [ea, eh, es]

/-- With the feature `ssl`: opening a connection for a URL opens one TCP connection, to the address the URL resolves
to, and does a TLS handshake over it, for the URL's host, if and only if the URL is https. -/
theorem C49_handshake_partial (net : Net ω α σ τ) (u : Url) (hl : LowerScheme u) (w w1 : ω) (id : StreamId α)
    (log : List (α ⊕ Bytes)) (h : net.toStreamAddr u w = (.ok id, w1)) (st : StreamEither σ τ) (w2 : ω × List (α ⊕ Bytes))
    (hc : (watched net).streamConnect true id (w1, log) = (.ok st, w2)) :
    ∃ a host, Resolves net u w a ∧ u.host = some host ∧
      ((PlainHttp u ∧ (∃ s, st = .A s) ∧ w2.2 = log ++ [.inl a]) ∨
       (SecureHttp u ∧ (∃ t, st = .B t) ∧ w2.2 = log ++ [.inl a, .inr host])) := by
  obtain ⟨h1, h2, h3, h4⟩ := toStreamAddr_ok hl h
  refine ⟨_, _, h1, h2, ?_⟩
  unfold Net.streamConnect watched at hc
  dsimp only at hc
  rcases hn : net.connect id.addr w1 with ⟨e | s, w3⟩ <;> rw [hn] at hc <;> dsimp only at hc
  · simp at hc
  · rw [if_pos rfl] at hc
    by_cases hsec : id.secure = true
    · rw [if_pos hsec] at hc
      rcases ht : net.tls id.host s w3 with ⟨t | e | _, w4⟩ <;> rw [ht] at hc <;>
        simp only [Prod.mk.injEq, Res.ok.injEq, reduceCtorEq, false_and] at hc
      refine .inr ⟨h3.1 hsec, ⟨t, hc.1.symm⟩, ?_⟩
      rw [← hc.2]; simp
    · rw [if_neg hsec] at hc
      simp only [Prod.mk.injEq, Res.ok.injEq] at hc
      refine .inl ⟨h4.1 (by simpa using hsec), ⟨s, hc.1.symm⟩, ?_⟩
      rw [← hc.2]

/-- Without the feature `ssl` every connection for an https URL is the bare TCP connection, and no handshake is done. -/
theorem C49_no_ssl (net : Net ω α σ τ) (u : Url) (_hs : SecureHttp u) (w w1 : ω) (id : StreamId α)
    (log : List (α ⊕ Bytes)) (_h : net.toStreamAddr u w = (.ok id, w1)) (st : StreamEither σ τ) (w2 : ω × List (α ⊕ Bytes))
    (hc : (watched net).streamConnect false id (w1, log) = (.ok st, w2)) :
    (∃ s w', net.connect id.addr w1 = (.ok s, w') ∧ st = .A s) ∧ w2.2 = log ++ [.inl id.addr] := by
  unfold Net.streamConnect watched at hc
  dsimp only at hc
  rcases hn : net.connect id.addr w1 with ⟨e | s, w3⟩ <;> rw [hn] at hc <;> dsimp only at hc
  · simp at hc
  · rw [if_neg (by simp)] at hc
    simp only [Prod.mk.injEq, Res.ok.injEq] at hc
    exact ⟨⟨s, w3, rfl, hc.1.symm⟩, by rw [← hc.2]⟩

section
variable {c : Cfg} [DecidableEq α] [LawfulReader σ] [LawfulReader τ] [LawfulWriter σ] [LawfulWriter τ]

/-- The connection is what its key says. -/
def Matches (V : Bytes → τ → Prop) (id : StreamId α) (st : StreamEither σ τ) : Prop :=
  if id.secure then ∃ t, st = .B t ∧ V id.host t else ∃ s, st = .A s

omit [CaseMap] [DecidableEq α] [LawfulReader σ] [LawfulWriter σ] [LawfulWriter τ] [LawfulReader τ] in
theorem matches_kept [Reader σ] [Reader τ] [LawfulWriter σ] [LawfulWriter τ] {net : Net ω α σ τ} {V : Bytes → τ → Prop} (hV : Verified net V) (id : StreamId α) :
    Kept (Matches (σ := σ) V id) ∧ ReadKept (Matches (σ := σ) V id) := by
  have hw : ∀ (s : StreamEither σ τ) buf, Matches V id s → Matches V id (write s buf).2 := by
    intro s buf hs
    unfold Matches at hs ⊢
    by_cases h : id.secure = true
    · rw [if_pos h] at hs ⊢
      obtain ⟨t, rfl, ht⟩ := hs
      exact ⟨_, rfl, hV.write _ _ buf ht⟩
    · rw [if_neg h] at hs ⊢
      obtain ⟨t, rfl⟩ := hs
      exact ⟨_, rfl⟩
  refine ⟨⟨hw, ?_, fun c s buf hs => defaultWriteAll_kept hw (c := c) hs⟩, ⟨?_⟩⟩
  · intro s hs
    unfold Matches at hs ⊢
    by_cases h : id.secure = true
    · rw [if_pos h] at hs ⊢
      obtain ⟨t, rfl, ht⟩ := hs
      exact ⟨_, rfl, hV.flush _ _ ht⟩
    · rw [if_neg h] at hs ⊢
      obtain ⟨t, rfl⟩ := hs
      exact ⟨_, rfl⟩
  · intro s n hs
    unfold Matches at hs ⊢
    by_cases h : id.secure = true
    · rw [if_pos h] at hs ⊢
      obtain ⟨t, rfl, ht⟩ := hs
      exact ⟨_, rfl, hV.read _ _ n ht⟩
    · rw [if_neg h] at hs ⊢
      obtain ⟨t, rfl⟩ := hs
      exact ⟨_, rfl⟩

/-- Every pooled connection is what its key says. -/
def AllMatch (V : Bytes → τ → Prop) (cl : HttpClient (StreamId α) (StreamEither σ τ)) : Prop :=
  ∀ id st, poolGet id cl.streams = some st → Matches V id st

omit [LawfulReader σ] [LawfulWriter σ] [LawfulWriter τ] [LawfulReader τ] in
theorem getStream_matches [Reader τ] [FiniteWriter τ] {net : Net ω α σ τ} {V : Bytes → τ → Prop} (hV : Verified net V)
    (cl : HttpClient (StreamId α) (StreamEither σ τ)) (h : AllMatch V cl) (u : Url) (w : ω) :
    AllMatch V (cl.getStream (net.connector true) u w).2.1 ∧
    ∀ id st, (cl.getStream (net.connector true) u w).1 = .ok (id, st) →
      Matches V id st ∧ ∃ w1, net.toStreamAddr u w = (.ok id, w1) := by
  unfold HttpClient.getStream Net.connector
  dsimp only
  rcases ha : net.toStreamAddr u w with ⟨id | e | _, w1⟩ <;> dsimp only
  · cases hp : poolGet id cl.streams with
    | some st =>
      refine ⟨h, fun id' st' he => ?_⟩
      simp only [Res.ok.injEq, Prod.mk.injEq] at he
      rw [← he.1, ← he.2]
      exact ⟨h id st hp, w1, rfl⟩
    | none =>
      dsimp only
      rcases hc : net.streamConnect true id w1 with ⟨st | e | _, w2⟩ <;> dsimp only
      · have hm : Matches V id st := by
          unfold Net.streamConnect at hc
          rcases hn : net.connect id.addr w1 with ⟨e | s, w3⟩ <;> rw [hn] at hc <;> dsimp only at hc
          · simp at hc
          · rw [if_pos rfl] at hc
            unfold Matches
            by_cases hsec : id.secure = true
            · rw [if_pos hsec] at hc ⊢
              rcases ht : net.tls id.host s w3 with ⟨t | e | _, w4⟩ <;> rw [ht] at hc <;>
                simp only [Prod.mk.injEq, Res.ok.injEq, reduceCtorEq, false_and] at hc
              exact ⟨t, hc.1.symm, hV.handshake _ _ _ _ _ ht⟩
            · rw [if_neg hsec] at hc ⊢
              simp only [Prod.mk.injEq, Res.ok.injEq] at hc
              exact ⟨s, hc.1.symm⟩
        refine ⟨fun id' st' hg => ?_, fun id' st' he => ?_⟩
        · by_cases hid : id' = id
          · subst hid
            rw [poolGet_set_same] at hg
            simp only [Option.some.injEq] at hg
            rw [← hg]; exact hm
          · rw [poolGet_set_other hid] at hg
            exact h id' st' hg
        · simp only [Res.ok.injEq, Prod.mk.injEq] at he
          rw [← he.1, ← he.2]
          exact ⟨hm, w1, rfl⟩
      · exact ⟨h, by simp⟩
      · exact ⟨h, by simp⟩
  · exact ⟨h, by simp⟩
  · exact ⟨h, by simp⟩

omit [CaseMap] [LawfulReader σ] [LawfulWriter σ] [LawfulWriter τ] [LawfulReader τ] in
theorem AllMatch.putBack {V : Bytes → τ → Prop} {cl : HttpClient (StreamId α) (StreamEither σ τ)} (h : AllMatch V cl)
    {id : StreamId α} {st : StreamEither σ τ} (hs : Matches V id st) : AllMatch V (cl.putBack id st) := by
  intro id' st' hg
  unfold HttpClient.putBack at hg
  by_cases hid : id' = id
  · subst hid
    rw [poolGet_set_same] at hg
    simp only [Option.some.injEq] at hg
    rw [← hg]; exact hs
  · rw [poolGet_set_other hid] at hg
    exact h id' st' hg

theorem exchange_matches {β : Type} {net : Net ω α σ τ} {V : Bytes → τ → Prop} (hV : Verified net V)
    (x : Exchange c (StreamEither σ τ) β) (hx : x.Confined) (cl : HttpClient (StreamId α) (StreamEither σ τ))
    (h : AllMatch V cl) (w : ω) : AllMatch V (exchange (net.connector true) x cl w).2.1 := by
  rw [exchange_eq]
  unfold HttpClient.request
  cases x.url with
  | none => exact h
  | some u =>
    dsimp only
    cases HttpRequestBuilder.new c (HttpUrl.tryFrom u) (if x.put then .Put else .Get) with
    | err e => exact h
    | panic => exact h
    | ok b =>
      dsimp only
      obtain ⟨h1, h2⟩ := getStream_matches hV cl h u w
      rcases hg : cl.getStream (net.connector true) u w with ⟨⟨id, st⟩ | e | _, cl', w'⟩ <;> rw [hg] at h1 h2 <;>
        dsimp only at h1 h2 ⊢
      · have hm := (h2 id st rfl).1
        obtain ⟨hk, hr⟩ := matches_kept hV id
        have hser := hk.serialize (c := c) (r := b.request) hm
        unfold HttpRequestBuilder.send
        rcases hs : b.request.serialize (BufWriter.new c st) with ⟨e, s'⟩ | o <;> rw [hs] at hser <;> dsimp only at hser ⊢
        · exact h1.putBack hser
        · exact h1.putBack (hx _ hr.read hk.write hk.flush hk.writeAll o (by cases o <;> exact hser))
      · exact h1
      · exact h1

/-- With the feature `ssl`, whatever was done with the client before: the connection that a request to an https URL is
given is a TLS session in which the peer proved to be the URL's host, and the one that a request to an http URL is given
is a bare TCP connection. Missing from C49: the same without the feature (`C49_plain_https_false`). -/
theorem C49_session_partial {β : Type} (net : Net ω α σ τ) (V : Bytes → τ → Prop) (hV : Verified net V)
    (xs : List (Exchange c (StreamEither σ τ) β)) (hxs : ∀ x ∈ xs, x.Confined) (w : ω) (u : Url) (hl : LowerScheme u)
    (id : StreamId α) (st : StreamEither σ τ)
    (h : ((history (net.connector true) xs HttpClient.new w).2.1.getStream (net.connector true) u
      (history (net.connector true) xs HttpClient.new w).2.2).1 = .ok (id, st)) :
    ∃ host, u.host = some host ∧
      ((SecureHttp u ∧ ∃ t, st = .B t ∧ V host t) ∨ (PlainHttp u ∧ ∃ s, st = .A s)) := by
  have key : ∀ (xs : List (Exchange c (StreamEither σ τ) β)) (cl : HttpClient (StreamId α) (StreamEither σ τ)) (w : ω),
      (∀ x ∈ xs, x.Confined) → AllMatch V cl → AllMatch V (history (net.connector true) xs cl w).2.1 := by
    intro xs
    induction xs with
    | nil => intro cl w _ h; exact h
    | cons x xs ih =>
      intro cl w hx h
      exact ih _ _ (fun y hy => hx y (by simp [hy])) (exchange_matches hV x (hx x (by simp)) cl h w)
  have hall := key xs HttpClient.new w hxs (by intro id st hg; simp [HttpClient.new, poolGet] at hg)
  obtain ⟨hm, w1, ha⟩ := (getStream_matches hV _ hall u _).2 id st h
  obtain ⟨_, h2, h3, h4⟩ := toStreamAddr_ok hl ha
  refine ⟨_, h2, ?_⟩
  unfold Matches at hm
  by_cases hs : id.secure = true
  · rw [if_pos hs] at hm; exact .inl ⟨h3.1 hs, hm⟩
  · rw [if_neg hs] at hm; exact .inr ⟨h4.1 (by simpa using hs), hm⟩

end
end

/-- A network with three addresses by host name length; a TLS session remembers its host and the TCP connection. -/
def sampleNet : Net Unit Nat (Duplex Wire Sink) (Duplex Wire Sink × Bytes) :=
  ⟨fun h _ w => (.ok [h.length], w), fun _ w => (.ok ⟨⟨[]⟩, ⟨[], 0, []⟩⟩, w), fun h s w => (.ok (s, h), w)⟩

/-- C49 fails if the feature `ssl` is off: an https URL is connected to without a handshake. -/
theorem C49_plain_https_false [CaseMap] :
    ¬ ∀ (ssl : Bool) (net : Net Unit Nat (Duplex Wire Sink) (Duplex Wire Sink × Bytes)) (u : Url) (host : Bytes)
        (id : StreamId Nat) (st : StreamEither (Duplex Wire Sink) (Duplex Wire Sink × Bytes)) (w2 : Unit × List (Nat ⊕ Bytes)),
      LowerScheme u → SecureHttp u → u.host = some host → net.toStreamAddr u () = (.ok id, ()) →
      (watched net).streamConnect ssl id ((), []) = (.ok st, w2) → .inr host ∈ w2.2 := by
  intro h
  have ha : AsciiText sampleUrl.scheme := by rw [← isAscii_iff]; decide
  have hs : SecureHttp sampleUrl := by unfold SecureHttp; rw [utf8_https]; exact sameText_refl _
  obtain ⟨v, h1, hv⟩ := HttpUrl.tryFrom_ok (u := sampleUrl) ha (.inr hs) rfl
  have := h false sampleNet sampleUrl b!"h" ⟨1, b!"h", v = .Https⟩ (.A ⟨⟨[]⟩, ⟨[], 0, []⟩⟩) ((), [.inl 1])
    (by unfold LowerScheme sampleUrl; decide) hs rfl
    (by unfold Net.toStreamAddr; rw [h1]; rfl) rfl
  simp at this

example : let _ := asciiCase
    LowerScheme sampleUrl ∧ SecureHttp sampleUrl ∧
    sampleNet.toStreamAddr sampleUrl () = (.ok ⟨1, b!"h", true⟩, ()) ∧
    sampleNet.toStreamAddr { sampleUrl with scheme := b!"http" } () = (.ok ⟨1, b!"h", false⟩, ()) ∧
    (watched sampleNet).streamConnect true ⟨1, b!"h", true⟩ ((), []) =
      (.ok (.B (⟨⟨[]⟩, ⟨[], 0, []⟩⟩, b!"h")), ((), [.inl 1, .inr b!"h"])) ∧
    (watched sampleNet).streamConnect false ⟨1, b!"h", true⟩ ((), []) =
      (.ok (.A ⟨⟨[]⟩, ⟨[], 0, []⟩⟩), ((), [.inl 1])) := by
  let _ := asciiCase
  refine ⟨by unfold LowerScheme sampleUrl; decide, by unfold SecureHttp; rw [utf8_https]; exact sameText_refl _, ?_, ?_, ?_, ?_⟩
  all_goals decide +kernel

/-- A network in which a TLS session begins by sending the host, as a stand-in for a handshake. -/
def greetNet : Net Unit Nat (Duplex Wire Sink) (Duplex Wire Sink) :=
  ⟨fun h _ w => (.ok [h.length], w), fun _ w => (.ok ⟨⟨[]⟩, ⟨[], 0, []⟩⟩, w),
    fun h s w => (.ok ⟨s.rd, { s.wr with got := h }⟩, w)⟩

theorem greetNet_verified : Verified greetNet fun host t => host <+: sent t where
  handshake host s w t w' h := by
    simp only [greetNet, Prod.mk.injEq, Res.ok.injEq] at h
    rw [← h.1]; exact List.prefix_refl _
  read host t n h := h
  write host t buf h := by
    rcases hw : write t buf with ⟨e | k, t'⟩
    · rw [LawfulWriter.write_err_sent hw]; exact h
    · rw [LawfulWriter.write_ok_sent hw]; exact h.trans (List.prefix_append _ _)
  flush host t h := by rw [LawfulWriter.flush_sent]; exact h

/-- Witness: after any number of requests, a request to an https URL. -/
example (n : Nat) : let _ := asciiCase
    let xs : List (Exchange ⟨true⟩ (StreamEither (Duplex Wire Sink) (Duplex Wire Sink)) Outcome) :=
      List.replicate n (sampleAsk [10]).exchange
    (∀ x ∈ xs, x.Confined) ∧
    ∀ id st, ((history (greetNet.connector true) xs HttpClient.new ()).2.1.getStream (greetNet.connector true) sampleUrl
      (history (greetNet.connector true) xs HttpClient.new ()).2.2).1 = .ok (id, st) → ∃ t, st = .B t ∧ b!"h" <+: sent t := by
  intro inst xs
  have hx : ∀ x ∈ xs, x.Confined := by
    intro x hx
    rw [List.eq_of_mem_replicate hx]
    exact (sampleAsk [10]).confined
  refine ⟨hx, fun id st h => ?_⟩
  obtain ⟨host, h1, ⟨_, t, h2, h3⟩ | ⟨h2, _⟩⟩ := @C49_session_partial asciiCase _ _ _ _ _ _ _ _ _ _ _ greetNet _ greetNet_verified xs hx () sampleUrl
    (by unfold LowerScheme sampleUrl; decide) id st h
  · simp only [sampleUrl, Option.some.injEq] at h1
    subst h1
    exact ⟨t, h2, h3⟩
  · unfold PlainHttp at h2
    rw [utf8_http, sameText_lower (by rw [← isAscii_iff]; decide) _ (by decide) (by decide)] at h2
    exact absurd h2 (by decide +kernel)

/-- … and such a request is given a connection. -/
example : let _ := asciiCase
    (HttpClient.new.getStream (greetNet.connector true) sampleUrl ()).1 =
      .ok (⟨1, b!"h", true⟩, .B ⟨⟨[]⟩, ⟨b!"h", 0, []⟩⟩) := by decide +kernel

end HttpIo
