import Verif.Spec.OneShot
import Verif.Props.ServeFails
import Verif.Props.Forward

/-! C101: what the one-shot functions `client::get` and `client::put` report. -/

namespace HttpIo
open Spec

/-- A request with a body. -/
theorem Spec.FailsWith.outgoing {σ : Type} [Writer σ] {c : Cfg} {P : σ → Prop} {F : Err → Prop} (h : FailsWith c P F) :
    FailsWith c (fun o : OutgoingRequest c σ => (∃ b, o = .WithBody b) ∧ P o.socketOf) fun e => F e ∨ e = tookNothing c := by
  have hk := h.kept.outgoing (c := c)
  have hw : ∀ (o : OutgoingRequest c σ) buf, ((∃ b, o = .WithBody b) ∧ P o.socketOf) →
      ((∃ b, (HttpIo.write o buf).2 = .WithBody b) ∧ P (HttpIo.write o buf).2.socketOf) := by
    rintro o buf ⟨⟨b, rfl⟩, ho⟩
    exact ⟨⟨_, rfl⟩, hk.write _ buf ho⟩
  have he : ∀ (o : OutgoingRequest c σ) buf e, ((∃ b, o = .WithBody b) ∧ P o.socketOf) →
      (HttpIo.write o buf).1 = .error e → F e ∨ e = tookNothing c := by
    rintro o buf e ⟨⟨b, rfl⟩, ho⟩ he
    exact h.outgoingBody (b := b) ho he
  refine ⟨hw, ?_, ?_, he, ?_, ?_⟩
  · rintro o ⟨⟨b, rfl⟩, ho⟩
    exact ⟨⟨_, rfl⟩, hk.flush _ ho⟩
  · intro c' o buf ho
    exact defaultWriteAll_kept (Q := fun o : OutgoingRequest c σ => (∃ b, o = .WithBody b) ∧ P o.socketOf) hw ho
  · rintro o e ⟨⟨b, rfl⟩, ho⟩ he
    exact h.attempts (b := b) (cs := [.flush]) ho (by
      unfold Spec.attempt
      exact List.mem_cons.2 (.inl (by
        rcases hf : HttpIo.flush (OutgoingRequest.WithBody b) with ⟨r, o'⟩
        rw [hf] at he
        dsimp only at he
        rw [he]; rfl)))
  · intro o buf e ho h'
    exact writeLoop_fails (P := fun o : OutgoingRequest c σ => (∃ b, o = .WithBody b) ∧ P o.socketOf) hw he ho h'

/-- The status of a parsed response is one of the table's, if its code is. -/
theorem response_status_known {ρ : Type} [LawfulReader ρ] [CaseMap] {c : Cfg} {s s' : ρ} {r : HttpResponse c (BufReader c ρ)}
    (h : HttpResponse.deserialize c s = (.ok r, s')) : HttpStatus.fromCode r.status.toCode = r.status := by
  unfold HttpResponse.deserialize at h
  rcases hh : parseHead c parseStatusLine s with ⟨⟨⟨v, st⟩, hs1, enc, n⟩ | _ | _, s1⟩ <;> rw [hh] at h <;>
    simp only [Prod.mk.injEq, Res.ok.injEq, reduceCtorEq, false_and] at h
  obtain ⟨rfl, rfl⟩ := h
  obtain ⟨line, _, hl, _, hst, _⟩ := parseHead_inv hh
  exact (parseStatusLine_inv hst).2.2

section
variable [CaseMap] {c : Cfg} {ω α ρ σ τ : Type} [LawfulReader ρ] [LawfulWriter σ] [LawfulReader τ] {P : σ → Prop}
  {F : Err → Prop}

/-- What `sendRequest` says, given what `send` and the copying of the body say. -/
theorem sendRequest_fails (hf : FailsWith c P F) (N : StreamConnector ω α (Duplex ρ σ))
    (hP : ∀ a w d w', N.connect a w = (.ok d, w') → P d.wr) (b : HttpRequestBuilder c) (u : Url) (body : τ) (w w' : ω) (e : Err)
    (hbody : ∀ (d : Duplex ρ σ) o, P d.wr → b.request.serialize (BufWriter.new c d) = .ok o →
      ∀ e, (copy c body o 0).1 = .error e → .fault e ∈ trace body ∨ F e ∨ e = tookNothing c)
    (h : sendRequest c N b u body w = (.err e, w')) :
    OneShotFails c N F (trace body) w (some u) e ∨
      ∃ a w1 d d', N.toStreamAddr u w = (.ok a, w1) ∧ N.connect a w1 = (.ok d, w') ∧ P d.wr ∧
        b.request.serialize (BufWriter.new c d) = .error (e, d') := by
  unfold sendRequest at h
  rcases ha : N.toStreamAddr u w with ⟨a | e1 | _, w1⟩ <;> rw [ha] at h <;>
    simp only [Prod.mk.injEq, reduceCtorEq, false_and, Res.err.injEq] at h
  · rcases hc : N.connect a w1 with ⟨d | e1 | _, w2⟩ <;> rw [hc] at h <;>
      simp only [Prod.mk.injEq, reduceCtorEq, false_and, Res.err.injEq] at h
    · have hd := hP _ _ _ _ hc
      unfold HttpRequestBuilder.send at h
      have hk := duplex_kept (σ := σ) d.rd
      have hk2 := (hf.duplex (ρ := ρ)).kept
      have h3 := hk.serialize (r := b.request) (s := d) rfl
      have h4 := hk2.serialize (r := b.request) (s := d) hd
      cases hs : b.request.serialize (BufWriter.new c d) with
      | error x =>
        obtain ⟨e1, d1⟩ := x
        rw [hs] at h
        simp only [Prod.mk.injEq, Res.err.injEq] at h
        right
        exact ⟨a, w1, d, d1, rfl, by rw [hc, h.2], hd, by rw [hs, h.1]⟩
      | ok o =>
        left
        rw [hs] at h h3 h4
        dsimp only at h h3 h4
        have h6 := (hk.outgoing (c := c)).copy (c := c) (r := body) (s := o) (n := 0) h3
        have h7 := (hk2.outgoing (c := c)).copy (c := c) (r := body) (s := o) (n := 0) h4
        have hb := hbody d o hd hs
        rcases hcp : copy c body o 0 with ⟨e1 | _, body', o'⟩
        · rw [hcp] at h hb
          simp only [Prod.mk.injEq, Res.err.injEq] at h
          rw [h.1] at hb
          rcases hb e rfl with hb | hb
          · exact .body ha hc hb
          · exact .sending ha hc hb
        · rw [hcp] at h h6 h7
          dsimp only at h h6 h7
          rcases hfin : o'.finish with ⟨r | e1 | _, d'⟩ <;> rw [hfin] at h <;> dsimp only at h
          · by_cases hok : r.status = .OK
            · rw [if_neg (by simp [hok])] at h; simp at h
            · rw [if_pos hok] at h
              simp only [Prod.mk.injEq, Res.err.injEq] at h
              have h9 := hk.complete h6
              unfold OutgoingRequest.finish at hfin
              cases hcm : o'.complete with
              | error e => rw [hcm] at hfin; simp at hfin
              | ok d1 =>
                rw [hcm] at hfin h9
                dsimp only at hfin h9
                rw [← h.1]
                refine .status ha hc h9 hfin ?_
                intro h200
                exact hok (by rw [← response_status_known hfin]; exact (fromCode_ok _).2 h200)
          · simp only [Prod.mk.injEq, Res.err.injEq] at h
            rw [h.1] at hfin
            rcases C93_finish hf o' d' h7 e hfin with g | g | g | g
            · exact .sending ha hc (.inl g)
            · exact .sending ha hc (.inr g)
            · rw [h6] at g; exact .receiving ha hc (.inl g)
            · exact .receiving ha hc (.inr g)
          · simp at h
    · left; rw [← h.1]; exact .connect ha hc
  · left; rw [← h.1]; exact .address ha

/-- `client::put`: every error is one that its causes gave, as it was. -/
theorem C101_put (hf : FailsWith c P F) (N : StreamConnector ω α (Duplex ρ σ))
    (hP : ∀ a w d w', N.connect a w = (.ok d, w') → P d.wr) (url : Option Url) (hs : ∀ u, url = some u → AsciiText u.scheme)
    (body : τ) (w w' : ω) (e : Err) (h : clientPut c N url body w = (.err e, w')) :
    OneShotFails c N F (trace body) w url e := by
  cases url with
  | none =>
    simp only [clientPut, Prod.mk.injEq, Res.err.injEq] at h
    rw [← h.1]; exact .noUrl
  | some u =>
    unfold clientPut HttpRequestBuilder.put at h
    dsimp only at h
    have hx := C40_builder c u .Put (hs u rfl)
    cases ht : HttpUrl.tryFrom u with
    | panic => rw [ht] at h; simp [HttpRequestBuilder.new] at h
    | err e1 =>
      rw [ht] at h hx
      simp only [HttpRequestBuilder.new, Prod.mk.injEq, Res.err.injEq] at h
      rw [← h.1]; exact .scheme (hx.2.1 rfl)
    | ok v =>
      obtain ⟨b, h2, h3, _, h5, _⟩ := HttpRequestBuilder.new_ok c v .Put
      rw [ht, h2] at h
      dsimp only at h
      have hser := fun (d : Duplex ρ σ) (hd : P d.wr) => C93_upload_partial (hf.duplex (ρ := ρ)) b.request (by rw [h3]; simp) d hd
      rcases sendRequest_fails hf N hP b u body w w' e (by
        intro d o hd hso e' he'
        obtain ⟨ob, rfl⟩ := ((C18_serialized b.request d h5 o hso).2.2 (by rw [h3]; simp))
        have hk := (hf.duplex (ρ := ρ)).kept.serialize (r := b.request) (s := d) (c := c) hd
        rw [hso] at hk
        rcases copy_failsWith (hf.duplex (ρ := ρ)).outgoing body (.WithBody ob) 0 ⟨⟨_, rfl⟩, hk⟩ e' he' with g | g | g
        · exact .inl g
        · exact .inr g
        · exact .inr (.inr g)) h with g | ⟨a, w1, d, d', ha, hc, hd, hx⟩
      · exact g
      · have := hser d hd
        rw [hx] at this
        exact .sending ha hc this

/-- `client::get`: the same, or, with std, an error of kind `Other` for a request that could not be written. -/
theorem C101_get_partial (hf : FailsWith c P F) (N : StreamConnector ω α (Duplex ρ σ))
    (hP : ∀ a w d w', N.connect a w = (.ok d, w') → P d.wr) (url : Option Url) (hs : ∀ u, url = some u → AsciiText u.scheme)
    (w w' : ω) (e : Err) (h : clientGet c N url w = (.err e, w')) :
    OneShotFails c N F [] w url e ∨ (c.std = true ∧ e = .io (.other 0) ∧
      ∃ u a w1 d, url = some u ∧ N.toStreamAddr u w = (.ok a, w1) ∧ N.connect a w1 = (.ok d, w')) := by
  cases url with
  | none =>
    simp only [clientGet, Prod.mk.injEq, Res.err.injEq] at h
    rw [← h.1]; exact .inl .noUrl
  | some u =>
    unfold clientGet HttpRequestBuilder.get at h
    dsimp only at h
    have hx := C40_builder c u .Get (hs u rfl)
    cases ht : HttpUrl.tryFrom u with
    | panic => rw [ht] at h; simp [HttpRequestBuilder.new] at h
    | err e1 =>
      rw [ht] at h hx
      simp only [HttpRequestBuilder.new, Prod.mk.injEq, Res.err.injEq] at h
      rw [← h.1]; exact .inl (.scheme (hx.2.1 rfl))
    | ok v =>
      obtain ⟨b, h2, h3, _⟩ := HttpRequestBuilder.new_ok c v .Get
      rw [ht, h2] at h
      dsimp only at h
      rcases sendRequest_fails hf N hP b u EmptyReader.mk w w' e (by
        intro d o hd hso e' he'
        rw [copy_empty] at he'; simp at he') h with g | ⟨a, w1, d, d', ha, hc, hd, hx⟩
      · exact .inl g
      · have := C93_no_body_partial (hf.duplex (ρ := ρ)) b.request (by rw [h3]; simp) d hd
        rw [hx] at this
        rcases this with g | g | ⟨g1, g2⟩
        · exact .inl (.sending ha hc (.inl g))
        · exact .inl (.sending ha hc (.inr g))
        · exact .inr ⟨g1, g2, u, a, w1, d, rfl, ha, hc⟩

end

/-- A network with one server, which answers every request alike; the connection to it does what `plan` says when it is
written to. -/
def planServer (plan : List WPlan) (answer : Bytes) : StreamConnector Unit Unit (Duplex Wire Sink) :=
  ⟨fun _ w => (.ok ⟨⟨[.data answer]⟩, ⟨[], 0, plan⟩⟩, w), fun _ w => (.ok (), w)⟩

/-- As stated the property is false: with std, a GET over a connection that was reset does not say so. -/
theorem C101_get_false : ¬ ∀ (_ : CaseMap) (c : Cfg) (plan : List WPlan) (answer : Bytes) (u : Url) (w' : Unit) (e : Err),
    clientGet c (planServer plan answer) (some u) () = (.err e, w') →
      OneShotFails c (planServer plan answer) (fun e => .fault e ∈ plan) [] () (some u) e := by
  intro h
  let _ := asciiCase
  have hu : SecureHttp sampleUrl := by
    unfold SecureHttp
    rw [utf8_https]
    exact sameText_refl _
  have key : (match clientGet ⟨true⟩ (planServer [.fault (.io (.other 104))] b!"") (some sampleUrl) () with
      | (.err e, _) => decide (e = .io (.other 0))
      | _ => false) = true := by decide +kernel
  split at key
  · rename_i e w' heq
    have hx := h asciiCase ⟨true⟩ [.fault (.io (.other 104))] b!"" sampleUrl w' e heq
    simp only [decide_eq_true_eq] at key
    subst key
    generalize hq : Err.io (.other 0) = e at hx
    cases hx with
    | scheme h => cases hq
    | address h => simp [planServer] at h
    | connect _ h => simp [planServer] at h
    | sending _ _ h => subst hq; simp [tookNothing] at h
    | body _ _ h => simp at h
    | receiving _ h1 h =>
      simp only [planServer, Prod.mk.injEq, Res.ok.injEq] at h1
      rw [← h1.1] at h
      subst hq
      rcases h with h | h
      · exact absurd h (by decide)
      · cases h
    | status _ _ _ _ _ => cases hq
  · cases key

/-- Witness: what each of the causes looks like, for PUT: a connection that is reset, a body that cannot be read, a server
that says nothing, one that answers something else than HTTP, one that answers 404, and a URL with another scheme. -/
example : let _ := asciiCase
    let put := fun (c : Cfg) plan answer (u : Option Url) body =>
      (match clientPut c (planServer plan answer) u (Wire.mk body) () with | (.err e, _) => some e | _ => none)
    (∀ plan : List WPlan, FailsWith ⟨true⟩ (fun s : Sink => ∀ e, .fault e ∈ s.plan → WPlan.fault e ∈ plan) (fun e => WPlan.fault e ∈ plan)) ∧
    put ⟨true⟩ [.fault (.io (.other 104))] b!"" (some sampleUrl) [.data b!"a"] = some (.io (.other 104)) ∧
    put ⟨true⟩ [.accept 0] b!"" (some sampleUrl) [.data b!"a"] = some (.io .writeZero) ∧
    put ⟨false⟩ [.accept 0] b!"" (some sampleUrl) [.data b!"a"] = some .unexpectedEof ∧
    put ⟨true⟩ [] b!"" (some sampleUrl) [.data b!"a", .fault (.io (.other 5))] = some (.io (.other 5)) ∧
    put ⟨true⟩ [] b!"" (some sampleUrl) [.data b!"a"] = some .unexpectedEof ∧
    put ⟨true⟩ [] b!"SSH-2.0\r\n" (some sampleUrl) [.data b!"a"] = some .parse ∧
    put ⟨true⟩ [] b!"HTTP/1.1 404 Not Found\r\n\r\n" (some sampleUrl) [.data b!"a"] = some (.unexpectedStatus .NotFound) ∧
    put ⟨true⟩ [] b!"" (some { sampleUrl with scheme := b!"ftp" }) [.data b!"a"] = some .parse ∧
    put ⟨true⟩ [] b!"" none [.data b!"a"] = some .parse := by
  intro _ put
  exact ⟨fun plan => sink_fails _ _, by decide +kernel, by decide +kernel, by decide +kernel, by decide +kernel,
    by decide +kernel, by decide +kernel, by decide +kernel, by decide +kernel, by decide +kernel⟩

end HttpIo
