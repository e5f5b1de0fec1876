import Verif.Model.Tls

/-! Specification vocabulary for handshakes over a transport whose calls are interrupted now and then. -/

namespace HttpIo.Spec
variable {α ε σ : Type}

/-- The library over the same transport, of which the next calls are interrupted where the list says so. A call that is
interrupted has no effect and fails with kind Interrupted: whoever makes it again has lost nothing. -/
def flaky (t : Tls ε σ) : Tls ε (σ × List Bool) where
  isHandshaking := t.isHandshaking
  wantsWrite := t.wantsWrite
  wantsRead := t.wantsRead
  writeTls e s :=
    if s.2.head? = some true then (.err (.io .interrupted), e, (s.1, s.2.tail))
    else ((t.writeTls e s.1).1, (t.writeTls e s.1).2.1, ((t.writeTls e s.1).2.2, s.2.tail))
  readTls e s :=
    if s.2.head? = some true then (.err (.io .interrupted), e, (s.1, s.2.tail))
    else ((t.readTls e s.1).1, (t.readTls e s.1).2.1, ((t.readTls e s.1).2.2, s.2.tail))
  process := t.process

/-- The same for the acceptor. -/
def flakyAcceptor (a : TlsAcceptor α ε σ) : TlsAcceptor α ε (σ × List Bool) where
  new := a.new
  readTls x s :=
    if s.2.head? = some true then (.err (.io .interrupted), x, (s.1, s.2.tail))
    else ((a.readTls x s.1).1, (a.readTls x s.1).2.1, ((a.readTls x s.1).2.2, s.2.tail))
  accept := a.accept
  intoConnection := a.intoConnection

/-- The next step of the handshake calls the transport. -/
def callsNext (t : Tls ε σ) : Shake ε σ → Bool
  | .at .writing e _ => t.wantsWrite e
  | .at .reading e _ => t.isHandshaking e && t.wantsRead e
  | _ => false

/-- How often the first `n` steps of a handshake, from `x`, call the transport. -/
def callsMade (t : Tls ε σ) (step : Shake ε σ → Shake ε σ) : Nat → Shake ε σ → Nat
  | 0, _ => 0
  | n + 1, x => (if callsNext t x then 1 else 0) + callsMade t step n (step x)

/-- The handshake, with interruptions `bs` still to come. -/
def withInterruptions (bs : List Bool) : Shake ε σ → Shake ε (σ × List Bool)
  | .at pc e s => .at pc e (s, bs)
  | .done (.ok (e, s)) => .done (.ok (e, (s, bs)))
  | .done (.err x) => .done (.err x)
  | .done .panic => .done .panic

end HttpIo.Spec
