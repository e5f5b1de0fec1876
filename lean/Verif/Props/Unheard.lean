import Verif.Lemmas.Unheard
import Verif.Spec.Arrival

/-! C161: a server cannot make a client send anything. -/

namespace HttpIo
open Spec

section
variable [CaseMap] {c : Cfg} {σ τ : Type} [LawfulReader σ] [ZeroReader σ] [Writer σ] [LawfulReader τ] [ZeroReader τ] [Writer τ]
  {R : σ → τ → Prop}

omit [CaseMap] [ZeroReader σ] [ZeroReader τ] in
theorem Spec.Unheard.twins (h : Unheard R) : Twins R := ⟨h.write, h.flush, h.writeAll⟩

/-- What a client does with a request, up to the end of reading the response. -/
theorem roundTrip_unheard (h : Unheard R) {o : OutgoingRequest c σ} {p : OutgoingRequest c τ} (ho : o.Alike R p)
    (writes : List WCall) (sizes sizes' : List Nat) : R (roundTrip writes sizes o).2 (roundTrip writes sizes' p).2 := by
  have g1 := (h.twins.outgoing (c := c)).perform (cs := writes) ho
  rcases e1 : perform o writes with ⟨r, o'⟩
  rcases e1' : perform p writes with ⟨r', p'⟩
  rw [e1, e1'] at g1
  obtain ⟨h1, g1⟩ := g1
  dsimp only at h1 g1
  subst h1
  cases r with
  | false =>
    unfold roundTrip
    rw [e1, e1']
    exact h.twins.droppedRequest g1
  | true =>
    have g2 := h.twins.complete g1
    cases e2 : o'.complete with
    | error x =>
      cases e2' : p'.complete with
      | ok y => rw [e2, e2'] at g2; exact g2.elim
      | error y =>
        rw [e2, e2'] at g2
        have f1 : o'.finish = (.err x.1, x.2) := by unfold OutgoingRequest.finish; rw [e2]
        have f2 : p'.finish = (.err y.1, y.2) := by unfold OutgoingRequest.finish; rw [e2']
        unfold roundTrip
        rw [e1, e1']
        dsimp only
        rw [f1, f2]
        exact g2.2
    | ok x =>
      cases e2' : p'.complete with
      | error y => rw [e2, e2'] at g2; exact g2.elim
      | ok y =>
        rw [e2, e2'] at g2
        have k1 := roundTrip_readKept (P := fun s => R s y) ⟨fun s n hs => h.left s y n hs⟩ (sizes := sizes) e1 e2 g2
        exact roundTrip_readKept (P := fun t => R (roundTrip writes sizes o).2 t) ⟨fun t n ht => h.right _ t n ht⟩
          (sizes := sizes') e1' e2' k1

/-- One request over a connection. -/
theorem run_unheard (h : Unheard R) (q : Ask) {s : σ} {t : τ} (hs : R s t) : R (q.run c s).2 (q.run c t).2 := by
  unfold Ask.run
  cases HttpRequestBuilder.new c (HttpUrl.tryFrom q.url) (if q.put then .Put else .Get) with
  | err e => exact hs
  | panic => exact hs
  | ok b =>
    dsimp only
    have g := h.twins.serialize (c := c) (r := b.request) hs
    unfold HttpRequestBuilder.send
    cases e : b.request.serialize (BufWriter.new c s) with
    | error x =>
      cases e' : b.request.serialize (BufWriter.new c t) with
      | error y => rw [e, e'] at g; exact g.2
      | ok y => rw [e, e'] at g; exact g.elim
    | ok x =>
      cases e' : b.request.serialize (BufWriter.new c t) with
      | error y => rw [e, e'] at g; exact g.elim
      | ok y => rw [e, e'] at g; exact roundTrip_unheard h g _ _ _

/-- A server cannot make a client send anything. A client makes requests one after the other over a connection, and the same
client makes them over another connection that takes what is written to it in the same way, but from which it gets something
else: another response, a redirect, a refusal, garbage, nothing at all. Then the client writes the same to both and leaves them
in the same state as far as writing is concerned. Nothing that it reads makes it send one more byte or one byte less: it repeats
no request, follows no redirect, stops at no announcement that the connection will be closed, and holds nothing back. -/
theorem C161_conversation (h : Unheard R) (qs : List Ask) {s : σ} {t : τ} (hs : R s t) :
    R (conversation c qs s).2 (conversation c qs t).2 := by
  induction qs generalizing s t with
  | nil => exact hs
  | cons q qs ih => exact ih (run_unheard h q hs)

omit [CaseMap] [ZeroReader σ] [ZeroReader τ] [LawfulReader σ] [LawfulReader τ] [Writer σ] [Writer τ] in
theorem poolGet_same {α : Type} [DecidableEq α] {a : α} {l : List (α × σ)} {m : List (α × τ)} (h : SamePool R l m) :
    (poolGet a l = none ∧ poolGet a m = none) ∨ ∃ s t, poolGet a l = some s ∧ poolGet a m = some t ∧ R s t := by
  induction h with
  | nil => exact .inl ⟨rfl, rfl⟩
  | cons a' hr _ ih =>
    unfold poolGet
    by_cases ha : a = a'
    · rw [if_pos ha, if_pos ha]; exact .inr ⟨_, _, rfl, rfl, hr⟩
    · rw [if_neg ha, if_neg ha]; exact ih

omit [CaseMap] [ZeroReader σ] [ZeroReader τ] [LawfulReader σ] [LawfulReader τ] [Writer σ] [Writer τ] in
theorem poolSet_same {α : Type} [DecidableEq α] {a : α} {s : σ} {t : τ} (hs : R s t) {l : List (α × σ)} {m : List (α × τ)}
    (h : SamePool R l m) : SamePool R (poolSet a s l) (poolSet a t m) := by
  induction h with
  | nil => exact .cons a hs .nil
  | cons a' hr hl ih =>
    unfold poolSet
    by_cases ha : a = a'
    · rw [if_pos ha, if_pos ha]; exact .cons a' hs hl
    · rw [if_neg ha, if_neg ha]; exact .cons a' hr ih

section
variable {ω α : Type} [DecidableEq α] {N : StreamConnector ω α σ} {N' : StreamConnector ω α τ}

omit [CaseMap] [ZeroReader σ] [ZeroReader τ] [LawfulReader σ] [LawfulReader τ] [Writer σ] [Writer τ] in
theorem getStream_same (hN : SameNetwork R N N') {cl : HttpClient α σ} {cl' : HttpClient α τ} (hp : SamePool R cl.streams cl'.streams)
    (url : Url) (w : ω) :
    SameOutcome (fun x y => x.1 = y.1 ∧ R x.2 y.2) (cl.getStream N url w).1 (cl'.getStream N' url w).1 ∧
      SamePool R (cl.getStream N url w).2.1.streams (cl'.getStream N' url w).2.1.streams ∧
      (cl.getStream N url w).2.2 = (cl'.getStream N' url w).2.2 := by
  unfold HttpClient.getStream
  rw [← hN.lookup]
  rcases N.toStreamAddr url w with ⟨a | e | _, w1⟩
  · dsimp only
    rcases poolGet_same (a := a) hp with ⟨h1, h2⟩ | ⟨s, t, h1, h2, hr⟩
    · rw [h1, h2]
      dsimp only
      have hw := hN.world a w1
      have hc := hN.connect a w1
      rcases e1 : N.connect a w1 with ⟨r, w2⟩
      rcases e2 : N'.connect a w1 with ⟨r', w2'⟩
      rw [e1, e2] at hw hc
      dsimp only at hw hc
      subst hw
      cases hc with
      | err e => exact ⟨.err e, hp, rfl⟩
      | panic => exact ⟨.panic, hp, rfl⟩
      | ok hr => exact ⟨.ok ⟨rfl, hr⟩, poolSet_same hr hp, rfl⟩
    · rw [h1, h2]
      exact ⟨.ok ⟨rfl, hr⟩, hp, rfl⟩
  · exact ⟨.err e, hp, rfl⟩
  · exact ⟨.panic, hp, rfl⟩

theorem exchange_same (h : Unheard R) (hN : SameNetwork R N N') {cl : HttpClient α σ} {cl' : HttpClient α τ}
    (hp : SamePool R cl.streams cl'.streams) (q : Ask) (w : ω) :
    SamePool R (exchange N (q.exchange (c := c)) cl w).2.1.streams (exchange N' (q.exchange (c := c)) cl' w).2.1.streams ∧
      (exchange N (q.exchange (c := c)) cl w).2.2 = (exchange N' (q.exchange (c := c)) cl' w).2.2 := by
  have key : ∀ method,
      SameOutcome (fun x y => x.1 = y.1 ∧ OutgoingRequest.Alike R x.2 y.2) (cl.request c N method (some q.url) w).1
        (cl'.request c N' method (some q.url) w).1 ∧
      SamePool R (cl.request c N method (some q.url) w).2.1.streams (cl'.request c N' method (some q.url) w).2.1.streams ∧
      (cl.request c N method (some q.url) w).2.2 = (cl'.request c N' method (some q.url) w).2.2 := by
    intro method
    unfold HttpClient.request
    dsimp only
    cases HttpRequestBuilder.new c (HttpUrl.tryFrom q.url) method with
    | err e => exact ⟨.err e, hp, rfl⟩
    | panic => exact ⟨.panic, hp, rfl⟩
    | ok b =>
      dsimp only
      obtain ⟨g1, g2, g3⟩ := getStream_same hN hp q.url w
      rcases e1 : cl.getStream N q.url w with ⟨r, cl1, w1⟩
      rcases e2 : cl'.getStream N' q.url w with ⟨r', cl1', w1'⟩
      rw [e1, e2] at g1 g2 g3
      dsimp only at g1 g2 g3
      subst g3
      cases g1 with
      | err e => exact ⟨.err e, g2, rfl⟩
      | panic => exact ⟨.panic, g2, rfl⟩
      | @ok x y hr =>
        obtain ⟨a, s⟩ := x
        obtain ⟨a', t⟩ := y
        obtain ⟨ha, hr⟩ := hr
        dsimp only at ha hr
        subst ha
        dsimp only
        have g := h.twins.serialize (c := c) (r := b.request) hr
        unfold HttpRequestBuilder.send
        cases e : b.request.serialize (BufWriter.new c s) with
        | error x =>
          cases e' : b.request.serialize (BufWriter.new c t) with
          | error y =>
            rw [e, e'] at g
            obtain ⟨x1, x2⟩ := x
            obtain ⟨y1, y2⟩ := y
            obtain ⟨ge, gr⟩ := g
            subst ge
            exact ⟨.err _, poolSet_same gr g2, rfl⟩
          | ok y => rw [e, e'] at g; exact g.elim
        | ok x =>
          cases e' : b.request.serialize (BufWriter.new c t) with
          | error y => rw [e, e'] at g; exact g.elim
          | ok y => rw [e, e'] at g; exact ⟨.ok ⟨rfl, g⟩, g2, rfl⟩
  have both : SameOutcome (fun x y => x.1 = y.1 ∧ OutgoingRequest.Alike R x.2 y.2)
        (if q.put then cl.put c N (some q.url) w else cl.get c N (some q.url) w).1
        (if q.put then cl'.put c N' (some q.url) w else cl'.get c N' (some q.url) w).1 ∧
      SamePool R (if q.put then cl.put c N (some q.url) w else cl.get c N (some q.url) w).2.1.streams
        (if q.put then cl'.put c N' (some q.url) w else cl'.get c N' (some q.url) w).2.1.streams ∧
      (if q.put then cl.put c N (some q.url) w else cl.get c N (some q.url) w).2.2 =
        (if q.put then cl'.put c N' (some q.url) w else cl'.get c N' (some q.url) w).2.2 := by
    by_cases hq : q.put = true
    · simp only [if_pos hq]; exact key .Put
    · simp only [if_neg hq]; exact key .Get
  unfold exchange Ask.exchange
  dsimp only
  obtain ⟨g1, g2, g3⟩ := both
  rcases e1 : (if q.put then cl.put c N (some q.url) w else cl.get c N (some q.url) w) with ⟨r, cl1, w1⟩
  rcases e2 : (if q.put then cl'.put c N' (some q.url) w else cl'.get c N' (some q.url) w) with ⟨r', cl1', w1'⟩
  rw [e1, e2] at g1 g2 g3
  dsimp only at g1 g2 g3
  subst g3
  cases g1 with
  | err e => exact ⟨g2, rfl⟩
  | panic => exact ⟨g2, rfl⟩
  | @ok x y hr =>
    obtain ⟨a, o⟩ := x
    obtain ⟨a', p⟩ := y
    obtain ⟨ha, hr⟩ := hr
    dsimp only at ha hr
    subst ha
    exact ⟨poolSet_same (roundTrip_unheard h hr _ _ _) g2, rfl⟩

/-- The same for a client with pooled connections, in two networks that differ only in what arrives: it opens connections to the
same addresses, in the same order, uses the same ones, and writes the same to each of them. -/
theorem C161_client (h : Unheard R) (hN : SameNetwork R N N') (qs : List Ask) {cl : HttpClient α σ} {cl' : HttpClient α τ}
    (hp : SamePool R cl.streams cl'.streams) (w : ω) :
    SamePool R (history N (qs.map (Ask.exchange (c := c))) cl w).2.1.streams
        (history N' (qs.map (Ask.exchange (c := c))) cl' w).2.1.streams ∧
      (history N (qs.map (Ask.exchange (c := c))) cl w).2.2 = (history N' (qs.map (Ask.exchange (c := c))) cl' w).2.2 := by
  induction qs generalizing cl cl' w with
  | nil => exact ⟨hp, rfl⟩
  | cons q qs ih =>
    obtain ⟨g1, g2⟩ := exchange_same (c := c) h hN hp q w
    have := ih g1 (exchange N (q.exchange (c := c)) cl w).2.2
    rw [show (history N' (qs.map (Ask.exchange (c := c))) (exchange N' (q.exchange (c := c)) cl' w).2.1
      (exchange N (q.exchange (c := c)) cl w).2.2) = (history N' (qs.map (Ask.exchange (c := c)))
      (exchange N' (q.exchange (c := c)) cl' w).2.1 (exchange N' (q.exchange (c := c)) cl' w).2.2) by rw [g2]] at this
    exact this

omit [DecidableEq α] [ZeroReader σ] [ZeroReader τ] in
/-- The same for a one-shot request: it looks up and connects to the same address once, and if a body is handed out on both sides,
the same has been written to the connections under them. -/
theorem C161_oneshot (h : Unheard R) (hN : SameNetwork R N N') {ρ : Type} [LawfulReader ρ] (b : HttpRequestBuilder c) (url : Url)
    (body : ρ) (w : ω) :
    (sendRequest c N b url body w).2 = (sendRequest c N' b url body w).2 ∧
      ∀ x y, (sendRequest c N b url body w).1 = .ok x → (sendRequest c N' b url body w).1 = .ok y →
        ∃ s t, x.under = some s ∧ y.under = some t ∧ R s.inner t.inner := by
  unfold sendRequest
  rw [← hN.lookup]
  rcases N.toStreamAddr url w with ⟨a | e | _, w1⟩
  · dsimp only
    have hw := hN.world a w1
    have hc := hN.connect a w1
    rcases e1 : N.connect a w1 with ⟨r, w2⟩
    rcases e2 : N'.connect a w1 with ⟨r', w2'⟩
    rw [e1, e2] at hw hc
    dsimp only at hw hc
    subst hw
    cases hc with
    | err e => exact ⟨rfl, by simp⟩
    | panic => exact ⟨rfl, by simp⟩
    | @ok s t hr =>
      dsimp only
      have g := h.twins.serialize (c := c) (r := b.request) hr
      unfold HttpRequestBuilder.send
      cases e : b.request.serialize (BufWriter.new c s) with
      | error x =>
        cases e' : b.request.serialize (BufWriter.new c t) with
        | error y => exact ⟨rfl, by simp⟩
        | ok y => rw [e, e'] at g; exact g.elim
      | ok o =>
        cases e' : b.request.serialize (BufWriter.new c t) with
        | error y => rw [e, e'] at g; exact g.elim
        | ok p =>
          rw [e, e'] at g
          dsimp only
          have g1 := (h.twins.outgoing (c := c)).copy (c := c) (r := body) (n := 0) g
          rcases f1 : copy c body o 0 with ⟨r1, b1, o1⟩
          rcases f2 : copy c body p 0 with ⟨r2, b2, p1⟩
          rw [f1, f2] at g1
          obtain ⟨h1, g1⟩ := g1
          dsimp only at h1 g1
          subst h1
          cases r1 with
          | error e => exact ⟨rfl, by simp⟩
          | ok k =>
            dsimp only
            have g2 := h.twins.complete g1
            have keepR : ∀ (x : HttpResponse c (BufReader c σ)) (s1 s2 : σ) (t1 : τ), R s1 t1 →
                HttpResponse.deserialize c s1 = (.ok x, s2) → R s2 t1 := by
              intro x s1 s2 t1 hR hd
              have := ReadKept.response (P := fun s => R s t1) ⟨fun s n hs => h.left s t1 n hs⟩ (c := c) (s := s1) hR
              rwa [hd] at this
            have keepL : ∀ (x : HttpResponse c (BufReader c τ)) (s1 : σ) (t1 t2 : τ), R s1 t1 →
                HttpResponse.deserialize c t1 = (.ok x, t2) → R s1 t2 := by
              intro x s1 t1 t2 hR hd
              have := ReadKept.response (P := fun t => R s1 t) ⟨fun t n ht => h.right s1 t n ht⟩ (c := c) (s := t1) hR
              rwa [hd] at this
            refine ⟨?_, ?_⟩
            · rcases o1.finish with ⟨_ | _ | _, _⟩ <;> rcases p1.finish with ⟨_ | _ | _, _⟩ <;> dsimp only <;>
                (try split) <;> (try split) <;> rfl
            intro x y hx hy
            rcases k1 : o1.finish with ⟨rx | _ | _, s2⟩
            · rcases k2 : p1.finish with ⟨ry | _ | _, t2⟩
              · rw [k1] at hx
                rw [k2] at hy
                dsimp only at hx hy
                by_cases hsx : rx.status = .OK
                · by_cases hsy : ry.status = .OK
                  · rw [if_neg (by simp [hsx])] at hx
                    rw [if_neg (by simp [hsy])] at hy
                    simp only [Res.ok.injEq] at hx hy
                    unfold OutgoingRequest.finish at k1 k2
                    cases c1 : o1.complete with
                    | error z => rw [c1] at k1; simp at k1
                    | ok s1 =>
                      cases c2 : p1.complete with
                      | error z => rw [c2] at k2; simp at k2
                      | ok t1 =>
                        rw [c1] at k1
                        rw [c2] at k2
                        rw [c1, c2] at g2
                        obtain ⟨u1, _⟩ := response_under k1
                        obtain ⟨u2, _⟩ := response_under k2
                        rw [← hx, ← hy]
                        exact ⟨_, _, u1, u2, keepL _ _ _ _ (keepR _ _ _ _ g2 k1) k2⟩
                  · rw [if_pos (by simp [hsy])] at hy; simp at hy
                · rw [if_pos (by simp [hsx])] at hx; simp at hx
              · rw [k2] at hy; simp at hy
              · rw [k2] at hy; simp at hy
            · rw [k1] at hx; simp at hx
            · rw [k1] at hx; simp at hx
  · exact ⟨rfl, by simp⟩
  · exact ⟨rfl, by simp⟩

end

end

section
variable {ρ ρ' σ : Type} [LawfulReader ρ] [ZeroReader ρ] [LawfulReader ρ'] [ZeroReader ρ'] [Writer σ]

omit [ZeroReader ρ] [ZeroReader ρ'] in
/-- Sockets with separate halves, and the same sending half. -/
theorem duplex_unheard : Unheard fun (s : Duplex ρ σ) (t : Duplex ρ' σ) => s.wr = t.wr where
  write s t buf h := by
    rw [Duplex.write_def, Duplex.write_def, h]
    exact ⟨rfl, rfl⟩
  flush s t h := by
    rw [Duplex.flush_def, Duplex.flush_def, h]
    exact ⟨rfl, rfl⟩
  writeAll c s t buf h := by
    rw [Duplex.writeAll_def, Duplex.writeAll_def, h]
    exact ⟨rfl, rfl⟩
  left _ _ _ h := h
  right _ _ _ h := h

/-- In particular over a socket with a receiving and a sending half: what is in the sending half in the end does not depend on the
receiving half. -/
theorem C161_socket [CaseMap] {c : Cfg} (qs : List Ask) (s : Duplex ρ σ) (t : Duplex ρ' σ) (h : s.wr = t.wr) :
    (conversation c qs s).2.wr = (conversation c qs t).2.wr :=
  C161_conversation (c := c) (R := fun (s : Duplex ρ σ) (t : Duplex ρ' σ) => s.wr = t.wr) duplex_unheard qs h

end

/-! A redirect, an announcement that the connection will be closed, and nothing at all. -/

/-- Two requests: a GET and a PUT. -/
def unheardAsks : List Ask :=
  [⟨false, { scheme := b!"http", host := some b!"a", port := none, path := b!"/", query := none, fragment := none }, [], [8, 8]⟩,
    ⟨true, { scheme := b!"http", host := some b!"a", port := none, path := b!"/up", query := none, fragment := none }, [.write b!"hi"], [8]⟩]

/-- A server that redirects and then wants to close. -/
def divertingServer : Duplex SliceReader Sink :=
  ⟨⟨b!"HTTP/1.0 302 Found\r\nLocation: http://b/\r\nConnection: close\r\nContent-Length: 0\r\n\r\n"⟩, ⟨[], 0, []⟩⟩

/-- A server that says nothing. -/
def muteServer : Duplex SliceReader Sink := ⟨⟨[]⟩, ⟨[], 0, []⟩⟩

theorem unheard_key (c : Cfg) : let _ := asciiCase; (decide ((conversation c unheardAsks divertingServer).1 = (conversation c unheardAsks muteServer).1)
    || (conversation c unheardAsks divertingServer).2.wr.got.length < 100) = false := by
  rcases c with ⟨_ | _⟩ <;> decide +kernel

/-- The client hears different things and has sent two whole requests to both. -/
example (c : Cfg) : let _ := asciiCase; (conversation c unheardAsks divertingServer).1 ≠ (conversation c unheardAsks muteServer).1 ∧
    100 ≤ (conversation c unheardAsks muteServer).2.wr.got.length ∧
    (conversation c unheardAsks divertingServer).2.wr = (conversation c unheardAsks muteServer).2.wr := by
  intro _
  have h := C161_socket (c := c) unheardAsks divertingServer muteServer rfl
  have k := unheard_key c
  simp only [Bool.or_eq_false_iff, decide_eq_false_iff_not] at k
  refine ⟨k.1, ?_, h⟩
  rw [← h]
  omega

/-- A network in which every connection leads to this server; the world counts the connections. -/
def leadingTo (s : Duplex SliceReader Sink) : StreamConnector Nat Bytes (Duplex SliceReader Sink) :=
  ⟨fun _ w => (.ok s, w + 1), fun url w => (.ok (url.host.getD []), w)⟩

theorem leadingTo_same : SameNetwork (fun s t => s.wr = t.wr) (leadingTo divertingServer) (leadingTo muteServer) :=
  ⟨fun _ _ => rfl, fun _ _ => rfl, fun _ _ => .ok rfl⟩

/-- A client with no connections yet: in the end it has one in each network, with the same two requests in its sending half. -/
example (c : Cfg) : let _ := asciiCase
    SamePool (fun s t => s.wr = t.wr) (history (leadingTo divertingServer) (unheardAsks.map (Ask.exchange (c := c))) ⟨[]⟩ 0).2.1.streams
        (history (leadingTo muteServer) (unheardAsks.map (Ask.exchange (c := c))) ⟨[]⟩ 0).2.1.streams ∧
      (history (leadingTo divertingServer) (unheardAsks.map (Ask.exchange (c := c))) ⟨[]⟩ 0).2.2 =
        (history (leadingTo muteServer) (unheardAsks.map (Ask.exchange (c := c))) ⟨[]⟩ 0).2.2 := by
  intro _
  exact C161_client duplex_unheard leadingTo_same unheardAsks .nil 0

/-- One-shot requests. -/
example [CaseMap] (c : Cfg) (b : HttpRequestBuilder c) (url : Url) :
    (sendRequest c (leadingTo divertingServer) b url EmptyReader.mk 0).2 = (sendRequest c (leadingTo muteServer) b url EmptyReader.mk 0).2 :=
  (C161_oneshot duplex_unheard leadingTo_same b url EmptyReader.mk 0).1

end HttpIo
