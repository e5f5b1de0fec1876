import Verif.Spec.Arrival
import Verif.Lemmas.Rest
import Verif.Lemmas.Pipes
import Verif.Lemmas.Reliable
import Verif.Lemmas.Kept
import Verif.Lemmas.Client
import Verif.Props.Head

/-! C149: what a caller gets depends only on what arrives. -/

namespace HttpIo
open Spec LawfulReader

theorem Spec.WritesApart.kept {σ : Type} [LawfulReader σ] [Writer σ] (h : WritesApart σ) (t : List Ev) :
    Kept fun s : σ => trace s = t :=
  ⟨fun s buf hs => (h.write s buf).trans hs, fun s hs => (h.flush s).trans hs, fun c s buf hs => (h.writeAll c s buf).trans hs⟩

theorem serialize_kind {c : Cfg} {σ ρ : Type} [Writer σ] {r : HttpRequest c ρ} {s : σ} {o : OutgoingRequest c σ}
    (h : r.serialize (BufWriter.new c s) = .ok o) :
    (∃ ob, o = .WithBody ob ∧ r.method.hasBody = true) ∨ (∃ t, o = .NoBody t ∧ r.method.hasBody = false) := by
  unfold HttpRequest.serialize at h
  rcases hw : writePieces c (BufWriter.new c s) r.headPieces with ⟨_ | _, w⟩ <;> rw [hw] at h <;> dsimp only at h
  · simp at h
  · cases hb : r.method.hasBody <;> rw [hb] at h
    · simp only [Bool.false_eq_true, if_false] at h
      rcases hi : w.intoInner with ⟨_, _⟩ | t <;> rw [hi] at h <;> dsimp only at h
      · simp at h
      · simp only [Except.ok.injEq] at h
        exact .inr ⟨t, h.symm, rfl⟩
    · simp only [if_pos, Except.ok.injEq] at h
      exact .inl ⟨_, h.symm, rfl⟩

theorem bufReader_trace_nostd {c : Cfg} (hstd : c.std = false) {σ : Type} [LawfulReader σ] (r : BufReader c σ) :
    trace r = trace r.inner := by
  show BufReader.traceImpl r = _
  unfold BufReader.traceImpl
  rw [hstd]
  rfl

theorem HttpBody.rest_framing {c : Cfg} {ρ ρ' : Type} [LawfulReader ρ] [LawfulReader ρ'] (enc enc' : Option Bytes) (n n' : Option Nat)
    {s : ρ} {u : ρ'} (h : trace s = trace u) (hf : framing (HttpBody.new c enc n s) = framing (HttpBody.new c enc' n' u)) :
    (HttpBody.new c enc n s).rest = (HttpBody.new c enc' n' u).rest := by
  unfold HttpBody.new at hf ⊢
  by_cases h1 : enc = some b!"chunked" <;> by_cases h2 : enc' = some b!"chunked"
  · rw [if_pos h1, if_pos h2]
    show some (chunkRest c none (trace s)) = some (chunkRest c none (trace u))
    rw [h]
  · rw [if_pos h1, if_neg h2] at hf
    cases n' <;> simp [framing] at hf
  · rw [if_neg h1, if_pos h2] at hf
    cases n <;> simp [framing] at hf
  · rw [if_neg h1, if_neg h2] at hf ⊢
    cases n <;> cases n' <;> simp only [framing, reduceCtorEq, Framing.limited.injEq] at hf
    · rfl
    · subst hf
      show some (limitRest _ (trace s)) = some (limitRest _ (trace u))
      rw [h]

section
variable [CaseMap] {c : Cfg}

/-- What sending on a reliable connection comes to: whether the calls succeed depends on the calls and the method only, and then
the response is read from a connection with the same pending events. -/
theorem asking_reliable {σ : Type} [LawfulReader σ] [Writer σ] {P : σ → Prop} (hP : Reliable c P) (hW : WritesApart σ)
    (b : HttpRequestBuilder c) (writes : List WCall) (s : σ) (hs : P s) :
    ∃ s1 : σ, trace s1 = trace s ∧ asking b writes s =
      if b.request.method.hasBody = true ∨ written writes = [] then some (HttpResponse.deserialize c s1).1 else none := by
  obtain ⟨o, g1, g2⟩ := hP.serialize_ok b.request (s := s) hs
  have hk := hW.kept (trace s)
  have k1 := hk.serialize (r := b.request) (s := s) rfl (c := c)
  rw [g1] at k1
  have hkind := serialize_kind g1
  have hsend : b.send s = .ok o := g1
  unfold asking
  rw [hsend]
  dsimp only
  rcases hkind with ⟨ob, rfl, hb⟩ | ⟨t, rfl, hb⟩
  · obtain ⟨b', g3, g4⟩ := hP.perform_ok (b := ob) (cs := writes) g2
    have k2 := hk.outgoing.perform (cs := writes) k1
    have hp : perform (OutgoingRequest.WithBody ob) writes = (true, .WithBody b') := by rw [perform_withBody, g3]
    rw [hp] at k2
    obtain ⟨s1, g5, _⟩ := hP.complete_ok (o := .WithBody b') g4
    have k3 := hk.complete k2
    rw [g5] at k3
    refine ⟨s1, k3, ?_⟩
    rw [hp, if_pos rfl, if_pos (.inl hb)]
    unfold OutgoingRequest.finish
    rw [g5]
  · obtain ⟨f1, f2⟩ := perform_noBody (c := c) t writes
    obtain ⟨s1, g5, _⟩ := hP.complete_ok (o := .NoBody t) g2
    have k3 := hk.complete k1
    rw [g5] at k3
    refine ⟨s1, k3, ?_⟩
    by_cases hw : written writes = []
    · rw [f2.2 hw, if_pos rfl, if_pos (.inr hw), f1]
      unfold OutgoingRequest.finish
      rw [g5]
    · rw [if_neg (fun h => hw (f2.1 h)), if_neg (by rw [hb]; simp [hw])]

/-- Two connections that take all that is written and on which the same bytes and faults arrive, whatever: the caller gets the
same from both, however each splits what arrives into reads and however much each takes per write. Missing for the full
property: a further request on the same connection. -/
theorem C149_one_partial {σ τ : Type} [LawfulReader σ] [ZeroReader σ] [Writer σ] [LawfulReader τ] [ZeroReader τ] [Writer τ]
    {P : σ → Prop} {Q : τ → Prop} (hP : Reliable c P) (hQ : Reliable c Q) (hσ : WritesApart σ) (hτ : WritesApart τ)
    (b : HttpRequestBuilder c) (writes : List WCall) (s : σ) (u : τ) (hs : P s) (hu : Q u) (ht : trace s = trace u) :
    SameResponse (asking b writes s) (asking b writes u) := by
  obtain ⟨s1, h1, h2⟩ := asking_reliable hP hσ b writes s hs
  obtain ⟨u1, h3, h4⟩ := asking_reliable hQ hτ b writes u hu
  rw [h2, h4]
  split
  · exact .done (C09_response c s1 u1 (by rw [h1, h3, ht])).1
  · exact .refused

/-- Reading a response from a connection: the last part of `roundTrip`. -/
def readResponse (c : Cfg) {σ : Type} [LawfulReader σ] [ZeroReader σ] (sizes : List Nat) (s1 : σ) : Outcome × σ :=
  match HttpResponse.deserialize c s1 with
  | (.err e, s) => (.failed e, s)
  | (.panic, s) => (.panicked, s)
  | (.ok r, s) => (.got r.status r.headers (calls r.body sizes).1, ((calls r.body sizes).2.under.map (·.inner)).getD s)

/-- What a request on a reliable connection comes to. -/
theorem run_reliable {σ : Type} [LawfulReader σ] [ZeroReader σ] [Writer σ] {P : σ → Prop} (hP : Reliable c P) (hW : WritesApart σ)
    (q : Ask) (s : σ) (hs : P s) :
    match HttpRequestBuilder.new c (HttpUrl.tryFrom q.url) (if q.put then .Put else .Get) with
    | .err e => q.run c s = (.failed e, s)
    | .panic => q.run c s = (.panicked, s)
    | .ok _ => ∃ s1 : σ, trace s1 = trace s ∧ P s1 ∧
        q.run c s = if q.put = true ∨ written q.writes = [] then readResponse c q.sizes s1 else (.unsent, s1) := by
  unfold Ask.run
  cases hb : HttpRequestBuilder.new c (HttpUrl.tryFrom q.url) (if q.put then .Put else .Get) with
  | err e => rfl
  | panic => rfl
  | ok b =>
    dsimp only
    have hm : b.request.method = if q.put then .Put else .Get := by
      cases hu : HttpUrl.tryFrom q.url with
      | err e => rw [hu] at hb; simp [HttpRequestBuilder.new] at hb
      | panic => rw [hu] at hb; simp [HttpRequestBuilder.new] at hb
      | ok u =>
        rw [hu] at hb
        obtain ⟨b', h2, h3, _⟩ := HttpRequestBuilder.new_ok c u (if q.put then .Put else .Get)
        rw [hb] at h2
        simp only [Res.ok.injEq] at h2
        rw [h2, h3]
    obtain ⟨o, g1, g2⟩ := hP.serialize_ok b.request (s := s) hs
    have hk := hW.kept (trace s)
    have k1 := hk.serialize (r := b.request) (s := s) rfl (c := c)
    rw [g1] at k1
    have hkind : (∃ ob, o = .WithBody ob ∧ q.put = true) ∨ (∃ t, o = .NoBody t ∧ q.put = false) := by
      rcases serialize_kind g1 with ⟨ob, h1, h2⟩ | ⟨t, h1, h2⟩ <;> rw [hm] at h2 <;> cases hput : q.put <;> rw [hput] at h2
      · exact absurd h2 (by decide)
      · exact .inl ⟨ob, h1, rfl⟩
      · exact .inr ⟨t, h1, rfl⟩
      · exact absurd h2 (by decide)
    have hsend : b.send s = .ok o := g1
    rw [hsend]
    dsimp only
    unfold roundTrip
    rcases hkind with ⟨ob, rfl, hput⟩ | ⟨t, rfl, hput⟩
    · obtain ⟨b', g3, g4⟩ := hP.perform_ok (b := ob) (cs := q.writes) g2
      have k2 := hk.outgoing.perform (cs := q.writes) k1
      have hp : perform (OutgoingRequest.WithBody ob) q.writes = (true, .WithBody b') := by rw [perform_withBody, g3]
      rw [hp] at k2
      obtain ⟨s1, g5, g6⟩ := hP.complete_ok (o := .WithBody b') g4
      have k3 := hk.complete k2
      rw [g5] at k3
      refine ⟨s1, k3, g6, ?_⟩
      rw [hp, if_pos (.inl hput)]
      dsimp only
      unfold OutgoingRequest.finish readResponse
      rw [g5]
      dsimp only
      rcases HttpResponse.deserialize c s1 with ⟨_ | _ | _, _⟩ <;> rfl
    · obtain ⟨f1, f2⟩ := perform_noBody (c := c) t q.writes
      by_cases hw : written q.writes = []
      · obtain ⟨s1, g5, g6⟩ := hP.complete_ok (o := .NoBody t) g2
        have k3 := hk.complete k1
        rw [g5] at k3
        refine ⟨s1, k3, g6, ?_⟩
        rw [if_pos (.inr hw), show perform (OutgoingRequest.NoBody (c := c) t) q.writes = (true, .NoBody t) from
          Prod.ext (f2.2 hw) f1]
        dsimp only
        unfold OutgoingRequest.finish readResponse
        rw [g5]
        dsimp only
        rcases HttpResponse.deserialize c s1 with ⟨_ | _ | _, _⟩ <;> rfl
      · refine ⟨t, k1, g2, ?_⟩
        have : (perform (OutgoingRequest.NoBody (c := c) t) q.writes).1 = false := by
          cases hx : (perform (OutgoingRequest.NoBody (c := c) t) q.writes).1 with
          | false => rfl
          | true => exact absurd (f2.1 hx) hw
        rw [if_neg (by simp [hput, hw]), show perform (OutgoingRequest.NoBody (c := c) t) q.writes = (false, .NoBody t) from
          Prod.ext this f1]
        rfl

/-- Reading a response to its end without `std`: the same from every connection with the same pending events, and the same is
left. -/
theorem readResponse_same {σ τ : Type} [LawfulReader σ] [ZeroReader σ] [LawfulReader τ] [ZeroReader τ] (hstd : c.std = false)
    (sizes sizes' : List Nat) (hp : Positive sizes) (hp' : Positive sizes') (s : σ) (u : τ) (ht : trace s = trace u)
    (hr : ReadOut (readResponse c sizes s).1) (hr' : ReadOut (readResponse c sizes' u).1) :
    Alike (readResponse c sizes s).1 (readResponse c sizes' u).1 ∧ trace (readResponse c sizes s).2 = trace (readResponse c sizes' u).2 := by
  obtain ⟨h1, h2⟩ := C09_response c s u ht
  unfold readResponse at hr hr' ⊢
  rcases hs : HttpResponse.deserialize c s with ⟨r, s2⟩
  rcases hu : HttpResponse.deserialize c u with ⟨r', u2⟩
  rw [hs] at h1 h2 hr
  rw [hu] at h1 h2 hr'
  dsimp only at h1 h2
  cases h1 with
  | err e => exact ⟨.failed e, h2⟩
  | panic => exact ⟨.panicked, h2⟩
  | ok h =>
    rename_i a b
    dsimp only at hr hr' ⊢
    obtain ⟨_, e2, e3, e4⟩ := h
    obtain ⟨_, enc, len, hnew⟩ := response_under hs
    obtain ⟨_, enc', len', hnew'⟩ := response_under hu
    have q1 : a.body.Sound := by rw [hnew]; exact HttpBody.rest_new ..
    have q2 : b.body.Sound := by rw [hnew']; exact HttpBody.rest_new ..
    obtain ⟨r1, r2⟩ := HttpBody.calls_rest a.body q1 sizes hp (hr _ _ _ rfl)
    obtain ⟨r3, r4⟩ := HttpBody.calls_rest b.body q2 sizes' hp' (hr' _ _ _ rfl)
    rw [e2, e3]
    refine ⟨.got _ _ (by rw [r2, r4, e4.events]), ?_⟩
    have hrest : a.body.rest = b.body.rest := by
      have hk := e4.kind
      rw [hnew, hnew'] at hk ⊢
      exact HttpBody.rest_framing enc enc' len len' (by rw [BufReader.trace_new, BufReader.trace_new, h2]) hk
    rw [hrest, ← r3] at r1
    cases hx : (calls a.body sizes).2.under with
    | none =>
      rw [hx] at r1
      cases hy : (calls b.body sizes').2.under with
      | none => exact h2
      | some v => rw [hy] at r1; simp at r1
    | some w =>
      rw [hx] at r1
      cases hy : (calls b.body sizes').2.under with
      | none => rw [hy] at r1; simp at r1
      | some v =>
        rw [hy] at r1
        simp only [Option.map_some, Option.some.injEq] at r1
        show trace w.inner = trace v.inner
        rw [bufReader_trace_nostd hstd, bufReader_trace_nostd hstd] at r1
        exact r1

theorem readResponse_kept {σ : Type} [LawfulReader σ] [ZeroReader σ] {P : σ → Prop} (hk : ReadKept P) (sizes : List Nat) (s : σ)
    (hs : P s) : P (readResponse c sizes s).2 := by
  have m1 := hk.response (c := c) (s := s) hs
  unfold readResponse
  rcases hd : HttpResponse.deserialize c s with ⟨r | e | _, s2⟩ <;> rw [hd] at m1
  · dsimp only at m1 ⊢
    have m3 : (r.body).All fun x : BufReader c σ => P x.inner := by
      obtain ⟨_, enc, len, hnew⟩ := response_under hd
      rw [hnew]; exact HttpBody.All.new m1
    have m4 := ((hk.bufReader (c := c)).body (c := c)).calls (sizes := sizes) m3
    cases hu : (calls r.body sizes).2.under with
    | none => exact m1
    | some s3 => exact m4.under hu
  · exact m1
  · exact m1

theorem run_same {σ τ : Type} [LawfulReader σ] [ZeroReader σ] [Writer σ] [LawfulReader τ] [ZeroReader τ] [Writer τ]
    {P : σ → Prop} {Q : τ → Prop} (hP : Reliable c P) (hQ : Reliable c Q) (hσ : WritesApart σ) (hτ : WritesApart τ)
    (kP : ReadKept P) (kQ : ReadKept Q) (hstd : c.std = false) (q : Ask) (sizes' : List Nat) (hp : Positive q.sizes)
    (hp' : Positive sizes') (s : σ) (u : τ) (hs : P s) (hu : Q u) (ht : trace s = trace u) (hr : ReadOut (q.run c s).1)
    (hr' : ReadOut (({ q with sizes := sizes' } : Ask).run c u).1) :
    Alike (q.run c s).1 (({ q with sizes := sizes' } : Ask).run c u).1 ∧
    trace (q.run c s).2 = trace (({ q with sizes := sizes' } : Ask).run c u).2 ∧ P (q.run c s).2 ∧
    Q (({ q with sizes := sizes' } : Ask).run c u).2 := by
  have h1 := run_reliable hP hσ q s hs
  have h2 := run_reliable hQ hτ { q with sizes := sizes' } u hu
  dsimp only at h2
  cases hb : HttpRequestBuilder.new c (HttpUrl.tryFrom q.url) (if q.put then .Put else .Get) with
  | err e =>
    rw [hb] at h1 h2
    dsimp only at h1 h2
    rw [h1, h2]
    exact ⟨.failed e, ht, hs, hu⟩
  | panic =>
    rw [hb] at h1 h2
    dsimp only at h1 h2
    rw [h1, h2]
    exact ⟨.panicked, ht, hs, hu⟩
  | ok b =>
    rw [hb] at h1 h2
    dsimp only at h1 h2
    obtain ⟨s1, a1, a2, a3⟩ := h1
    obtain ⟨u1, b1, b2, b3⟩ := h2
    rw [a3] at hr ⊢
    rw [b3] at hr' ⊢
    have h3 : trace s1 = trace u1 := by rw [a1, b1, ht]
    split
    · next h =>
      rw [if_pos h] at hr hr'
      obtain ⟨e1, e2⟩ := readResponse_same hstd q.sizes sizes' hp hp' s1 u1 h3 hr hr'
      exact ⟨e1, e2, readResponse_kept kP _ _ a2, readResponse_kept kQ _ _ b2⟩
    · exact ⟨.unsent, h3, a2, b2⟩

/-- Without `std`, requests one after the other on one connection, every body read to its end: what the caller gets depends only
on what arrives, not on how it is split, nor on the sizes with which the two callers read; nor does what is left. Missing for the
full property: with `std` this fails from the second request on (`C149_reused_false`). -/
theorem C149_session_partial {σ τ : Type} [LawfulReader σ] [ZeroReader σ] [Writer σ] [LawfulReader τ] [ZeroReader τ] [Writer τ]
    {P : σ → Prop} {Q : τ → Prop} (hP : Reliable c P) (hQ : Reliable c Q) (hσ : WritesApart σ) (hτ : WritesApart τ)
    (kP : ∀ s n, P s → P (read s n).2) (kQ : ∀ s n, Q s → Q (read s n).2) (hstd : c.std = false) (xs : List (Ask × List Nat))
    (hp : ∀ x ∈ xs, Positive x.1.sizes ∧ Positive x.2) (s : σ) (u : τ) (hs : P s) (hu : Q u) (ht : trace s = trace u)
    (hr : ∀ o ∈ (conversation c (xs.map (·.1)) s).1, ReadOut o)
    (hr' : ∀ o ∈ (conversation c (xs.map fun x => { x.1 with sizes := x.2 }) u).1, ReadOut o) :
    (∀ (i : Nat) (o o' : Outcome), (conversation c (xs.map (·.1)) s).1[i]? = some o →
      (conversation c (xs.map fun x => { x.1 with sizes := x.2 }) u).1[i]? = some o' → Alike o o') ∧
    (conversation c (xs.map (·.1)) s).1.length = xs.length ∧
    (conversation c (xs.map fun x => { x.1 with sizes := x.2 }) u).1.length = xs.length ∧
    trace (conversation c (xs.map (·.1)) s).2 = trace (conversation c (xs.map fun x => { x.1 with sizes := x.2 }) u).2 := by
  induction xs generalizing s u with
  | nil => exact ⟨by simp [conversation], rfl, rfl, ht⟩
  | cons x xs ih =>
    obtain ⟨q, sizes'⟩ := x
    have hh := hp (q, sizes') (.head _)
    obtain ⟨e1, e2, e3, e4⟩ := run_same hP hQ hσ hτ ⟨kP⟩ ⟨kQ⟩ hstd q sizes' hh.1 hh.2 s u hs hu ht (hr _ (.head _)) (hr' _ (.head _))
    obtain ⟨f1, f2, f3, f4⟩ := ih (fun x hx => hp x (.tail _ hx)) _ _ e3 e4 e2 (fun o ho => hr o (.tail _ ho))
      (fun o ho => hr' o (.tail _ ho))
    refine ⟨?_, congrArg (· + 1) f2, congrArg (· + 1) f3, f4⟩
    intro i o o' ho ho'
    cases i with
    | zero =>
      simp only [List.map_cons, conversation, List.getElem?_cons_zero, Option.some.injEq] at ho ho'
      rw [← ho, ← ho']
      exact e1
    | succ i =>
      simp only [List.map_cons, conversation, List.getElem?_cons_succ] at ho ho'
      exact f1 i o o' ho ho'

end

theorem duplex_writesApart {ρ σ : Type} [LawfulReader ρ] [Writer σ] : WritesApart (Duplex ρ σ) :=
  ⟨fun _ _ => rfl, fun _ => rfl, fun _ _ _ => rfl⟩

/-- GET http://h/, whose response is read with these sizes. -/
def askHost (sizes : List Nat) : Ask := ⟨false, ⟨b!"http", some b!"h", none, b!"/", none, none, [], none⟩, [], sizes⟩

def answerHi : Bytes := b!"HTTP/1.1 200 OK\r\ncontent-length: 2\r\n\r\nhi"

def answerNo : Bytes := b!"HTTP/1.1 404 Not Found\r\ncontent-length: 2\r\n\r\nno"

/-- Both answers in one piece, or each in one of its own. -/
def arrivesJoined : Duplex Wire Sink := ⟨⟨[.data (answerHi ++ answerNo)]⟩, Sink.mk [] 0 []⟩

def arrivesApart : Duplex Wire Sink := ⟨⟨[.data answerHi, .data answerNo]⟩, Sink.mk [] 0 []⟩

/-- The full property, requests one after the other, is false with `std`: the same bytes arrive on both connections, both
connections take all that is written, and both clients read the first response to its end, but with both answers in one piece the
second request fails with `UnexpectedEof` while with two pieces it gets the second response. -/
theorem C149_reused_false :
    let _ := asciiCase
    trace arrivesJoined = trace arrivesApart ∧
    (∀ o ∈ (conversation ⟨true⟩ [askHost [9, 9], askHost [9, 9]] arrivesJoined).1, ReadOut o) ∧
    (∀ o ∈ (conversation ⟨true⟩ [askHost [9, 9], askHost [9, 9]] arrivesApart).1, ReadOut o) ∧
    (conversation ⟨true⟩ [askHost [9, 9], askHost [9, 9]] arrivesJoined).1 =
      [.got .OK ⟨[(b!"content-length", b!"2")]⟩ [.ok b!"hi", .ok []], .failed .unexpectedEof] ∧
    (conversation ⟨true⟩ [askHost [9, 9], askHost [9, 9]] arrivesApart).1 =
      [.got .OK ⟨[(b!"content-length", b!"2")]⟩ [.ok b!"hi", .ok []],
       .got .NotFound ⟨[(b!"content-length", b!"2")]⟩ [.ok b!"no", .ok []]] := by
  intro _
  have h1 : (conversation ⟨true⟩ [askHost [9, 9], askHost [9, 9]] arrivesJoined).1 =
      [.got .OK ⟨[(b!"content-length", b!"2")]⟩ [.ok b!"hi", .ok []], .failed .unexpectedEof] := by decide +kernel
  have h2 : (conversation ⟨true⟩ [askHost [9, 9], askHost [9, 9]] arrivesApart).1 =
      [.got .OK ⟨[(b!"content-length", b!"2")]⟩ [.ok b!"hi", .ok []],
       .got .NotFound ⟨[(b!"content-length", b!"2")]⟩ [.ok b!"no", .ok []]] := by decide +kernel
  refine ⟨by decide +kernel, ?_, ?_, h1, h2⟩
  · intro o ho status headers rs h
    rw [h1] at ho
    subst h
    simp only [List.mem_cons, Outcome.got.injEq, reduceCtorEq, List.not_mem_nil, or_false] at ho
    rw [ho.2.2]
    simp
  · intro o ho status headers rs h
    rw [h2] at ho
    subst h
    simp only [List.mem_cons, Outcome.got.injEq, List.not_mem_nil, or_false] at ho
    rcases ho with ho | ho <;> rw [ho.2.2] <;> simp

example (c : Cfg) (b : HttpRequestBuilder c) (writes : List WCall) :
    let _ := asciiCase
    SameResponse (asking b writes arrivesJoined) (asking b writes arrivesApart) := by
  intro _
  exact C149_one_partial (duplex_reliable (sink_reliable c)) (duplex_reliable (sink_reliable c)) duplex_writesApart duplex_writesApart
    b writes _ _ (by simp [arrivesJoined]) (by simp [arrivesApart]) (by decide +kernel)

example :
    let _ := asciiCase
    (conversation ⟨false⟩ [askHost [9, 9], askHost [2, 2]] arrivesJoined).1 =
      [.got .OK ⟨[(b!"content-length", b!"2")]⟩ [.ok b!"hi", .ok []],
       .got .NotFound ⟨[(b!"content-length", b!"2")]⟩ [.ok b!"no", .ok []]] ∧
    trace (conversation ⟨false⟩ [askHost [9, 9], askHost [2, 2]] arrivesJoined).2 =
      trace (conversation ⟨false⟩ [askHost [1, 1, 1], askHost [1, 1, 1]] arrivesApart).2 := by
  intro _
  have h1 : (conversation ⟨false⟩ [askHost [9, 9], askHost [2, 2]] arrivesJoined).1 =
      [.got .OK ⟨[(b!"content-length", b!"2")]⟩ [.ok b!"hi", .ok []],
       .got .NotFound ⟨[(b!"content-length", b!"2")]⟩ [.ok b!"no", .ok []]] := by decide +kernel
  have h2 : (conversation ⟨false⟩ [askHost [1, 1, 1], askHost [1, 1, 1]] arrivesApart).1 =
      [.got .OK ⟨[(b!"content-length", b!"2")]⟩ [.ok b!"h", .ok b!"i", .ok []],
       .got .NotFound ⟨[(b!"content-length", b!"2")]⟩ [.ok b!"n", .ok b!"o", .ok []]] := by decide +kernel
  refine ⟨h1, ?_⟩
  refine (C149_session_partial (duplex_reliable (sink_reliable ⟨false⟩)) (duplex_reliable (sink_reliable ⟨false⟩)) duplex_writesApart
    duplex_writesApart (fun _ _ h => h) (fun _ _ h => h) rfl [(askHost [9, 9], [1, 1, 1]), (askHost [2, 2], [1, 1, 1])]
    (by unfold Positive; decide) arrivesJoined arrivesApart (by simp [arrivesJoined]) (by simp [arrivesApart]) (by decide +kernel)
    ?_ ?_).2.2.2
  · intro o ho status headers rs h
    change o ∈ (conversation ⟨false⟩ [askHost [9, 9], askHost [2, 2]] arrivesJoined).1 at ho
    rw [h1] at ho
    subst h
    simp only [List.mem_cons, Outcome.got.injEq, List.not_mem_nil, or_false] at ho
    rcases ho with ho | ho <;> rw [ho.2.2] <;> simp
  · intro o ho status headers rs h
    change o ∈ (conversation ⟨false⟩ [askHost [1, 1, 1], askHost [1, 1, 1]] arrivesApart).1 at ho
    rw [h2] at ho
    subst h
    simp only [List.mem_cons, Outcome.got.injEq, List.not_mem_nil, or_false] at ho
    rcases ho with ho | ho <;> rw [ho.2.2] <;> simp

end HttpIo
