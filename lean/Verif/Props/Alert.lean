import Verif.Spec.Alert
import Verif.Props.Tls

/-! C151: a handshake that is refused (rustls). -/

namespace HttpIo
open Spec
section
variable {ε σ : Type}

theorem guarded_write (t : Tls ε σ) (next : Pc) (e : ε) (s : σ) :
    (guarded t).writeRound next (e, false) s = unrefused (t.writeRound next e s) := by
  unfold Tls.writeRound
  show (if t.wantsWrite e then _ else _) = _
  cases t.wantsWrite e with
  | false => rfl
  | true =>
    simp only [if_true, guarded, Bool.false_eq_true, if_false]
    rcases t.writeTls e s with ⟨(_ | k) | _ | _, e', s'⟩ <;> rfl

theorem guarded_read (t : Tls ε σ) (next : Pc) (e : ε) (s : σ) :
    (guarded t).readRound next (e, false) s = unrefused (t.readRound next e s) := by
  unfold Tls.readRound
  show (if t.isHandshaking e && t.wantsRead e then _ else _) = _
  cases t.isHandshaking e && t.wantsRead e with
  | false => rfl
  | true =>
    simp only [if_true, guarded, Bool.false_eq_true, if_false]
    rcases t.readTls e s with ⟨(_ | k) | _ | _, e', s'⟩ <;> dsimp only
    · rfl
    · rcases t.process e' with ⟨_ | _ | _, e''⟩ <;> rfl
    · rfl
    · rfl

theorem guarded_finish (t : Tls ε σ) (e : ε) (s : σ) : (guarded t).finish (e, false) s = unrefused (t.finish e s) := by
  unfold Tls.finish
  show (if t.isHandshaking e then _ else _) = _
  cases t.isHandshaking e <;> rfl

theorem guarded_client (t : Tls ε σ) (x : Shake ε σ) : (guarded t).clientStep (unrefused x) = unrefused (t.clientStep x) := by
  rcases x with ⟨_ | _ | _ | _, e, s⟩ | ⟨⟨_, _⟩ | _ | _⟩
  · rfl
  · exact guarded_write ..
  · exact guarded_read ..
  · exact guarded_finish ..
  · rfl
  · rfl
  · rfl

theorem guarded_server (t : Tls ε σ) (x : Shake ε σ) : (guarded t).serverStep (unrefused x) = unrefused (t.serverStep x) := by
  rcases x with ⟨_ | _ | _ | _, e, s⟩ | ⟨⟨_, _⟩ | _ | _⟩
  · rfl
  · exact guarded_write ..
  · exact guarded_read ..
  · exact guarded_finish ..
  · rfl
  · rfl
  · rfl

theorem steps_unrefused {step : Shake ε σ → Shake ε σ} {gstep : Shake (ε × Bool) σ → Shake (ε × Bool) σ}
    (h : ∀ x, gstep (unrefused x) = unrefused (step x)) (n : Nat) (x : Shake ε σ) :
    Shake.steps gstep n (unrefused x) = unrefused (Shake.steps step n x) := by
  induction n generalizing x with
  | zero => rfl
  | succ n ih =>
    unfold Shake.steps
    rw [h, ih]

/-- Whatever the library and the transport: after something that came in has been refused the client neither writes nor reads, even
if the library has something to say; `SslClientStream::new` returns an error at once. Missing for the full property: what the
library has to say is not sent (`C151_told_false`). -/
theorem C151_client_partial (t : Tls ε σ) (e : ε) (s : σ) (n : Nat) :
    SslClientStream.new (guarded t) (.ok (e, false)) s n = unrefused (SslClientStream.new t (.ok e) s n) ∧
    ∀ e'', RefusesAt t (SslClientStream.new t (.ok e) s n) e'' → SslClientStream.new t (.ok e) s (n + 1) = .done (.err .ssl) := by
  refine ⟨steps_unrefused (guarded_client t) n (.at .outer e s), ?_⟩
  rintro e'' ⟨e1, s1, k, e', s', why, h1, h2, h3, h4, h5, _⟩
  unfold SslClientStream.new at h1 ⊢
  dsimp only at h1 ⊢
  rw [Shake.steps_add, h1]
  show t.readRound .outer e1 s1 = _
  unfold Tls.readRound
  rw [h2, h3, h4]
  simp [h5]

/-- The same for the server, after the ClientHello. -/
theorem C151_server_partial {α : Type} (a : TlsAcceptor α ε σ) (t : Tls ε σ) (accepted : Res σ) (n : Nat) :
    (∀ s, accepted = .ok s → Shake.steps (guarded t).serverStep n (unrefused (a.start s)) =
      unrefused (SslListener.accept a t accepted n)) ∧
    ∀ e'', RefusesAt t (SslListener.accept a t accepted n) e'' → SslListener.accept a t accepted (n + 1) = .done (.err .ssl) := by
  constructor
  · rintro s rfl
    exact steps_unrefused (guarded_server t) n (a.start s)
  · rintro e'' ⟨e1, s1, k, e', s', why, h1, h2, h3, h4, h5, _⟩
    cases accepted with
    | err x => simp [SslListener.accept] at h1
    | panic => simp [SslListener.accept] at h1
    | ok s =>
      unfold SslListener.accept at h1 ⊢
      dsimp only at h1 ⊢
      rw [Shake.steps_add, h1]
      show t.readRound .writing e1 s1 = _
      unfold Tls.readRound
      rw [h2, h3, h4]
      simp [h5]

end

/-- A small library that refuses what comes in unless it is `good`, and then has an alert to send. -/
def wary (good alert : Bytes) : Tls Toy ToyWire where
  isHandshaking e := 0 < e.need
  wantsWrite e := !e.out.isEmpty
  wantsRead e := e.out.isEmpty
  writeTls e s := (.ok e.out.length, { e with out := [] }, { s with output := s.output ++ e.out })
  readTls e s := (.ok (s.input.headD []).length, { e with last := s.input.headD [] }, { s with input := s.input.tail })
  process e := if e.last = good then (.ok (), { e with need := 0 }) else (.err .ssl, { e with out := alert })

/-- The full property is false, at both ends: a peer's message is refused, the library has an alert to send, and the handshake ends
with an error; at the client the last that was sent is its ClientHello, and a library that would panic if it were asked for
the alert is not noticed. -/
theorem C151_told_false :
    (∃ n e'' s, SslClientStream.new (wary b!"cert" b!"alert") (.ok ⟨1, b!"hello", b!""⟩) ⟨[b!"forged"], []⟩ n =
        .at .reading ⟨1, b!"", b!""⟩ s ∧ s.output = b!"hello" ∧
      RefusesAt (wary b!"cert" b!"alert") (SslClientStream.new (wary b!"cert" b!"alert") (.ok ⟨1, b!"hello", b!""⟩) ⟨[b!"forged"], []⟩ n) e'' ∧
      e''.out = b!"alert" ∧
      SslClientStream.new (guarded (wary b!"cert" b!"alert")) (.ok (⟨1, b!"hello", b!""⟩, false)) ⟨[b!"forged"], []⟩ (n + 1) =
        .done (.err .ssl)) ∧
    ∃ n e'', RefusesAt (wary b!"fin" b!"alert") (Shake.steps (wary b!"fin" b!"alert").serverStep n (.at .outer ⟨1, b!"", b!""⟩ ⟨[b!"bad"], []⟩)) e'' ∧
      e''.out = b!"alert" ∧
      Shake.steps (guarded (wary b!"fin" b!"alert")).serverStep (n + 1) (.at .outer (⟨1, b!"", b!""⟩, false) ⟨[b!"bad"], []⟩) =
        .done (.err .ssl) := by
  refine ⟨⟨3, ⟨1, b!"alert", b!"forged"⟩, ⟨[b!"forged"], b!"hello"⟩, by decide +kernel, rfl, ?_, rfl, by decide +kernel⟩,
    1, ⟨1, b!"alert", b!"bad"⟩, ?_, rfl, by decide +kernel⟩
  · exact ⟨⟨1, b!"", b!""⟩, ⟨[b!"forged"], b!"hello"⟩, 5, ⟨1, b!"", b!"forged"⟩, ⟨[], b!"hello"⟩, .ssl, by decide +kernel, by decide +kernel,
      by decide +kernel, by decide +kernel, by decide +kernel, by decide +kernel⟩
  · exact ⟨⟨1, b!"", b!""⟩, ⟨[b!"bad"], []⟩, 2, ⟨1, b!"", b!"bad"⟩, ⟨[], []⟩, .ssl, by decide +kernel, by decide +kernel,
      by decide +kernel, by decide +kernel, by decide +kernel, by decide +kernel⟩

/-- The same library completes a handshake with a peer that it does not refuse. -/
example : SslClientStream.new (wary b!"cert" b!"alert") (.ok ⟨1, b!"hello", b!""⟩) ⟨[b!"cert"], []⟩ 8 =
    .done (.ok (⟨0, b!"", b!"cert"⟩, ⟨[], b!"hello"⟩)) := by decide +kernel

/-- And a client that did send the alert would be found out by the guard. -/
example : (guarded (wary b!"cert" b!"alert")).writeRound .after (⟨1, b!"alert", b!"forged"⟩, true) ⟨[], b!"hello"⟩ = .done .panic := by
  decide +kernel

end HttpIo
