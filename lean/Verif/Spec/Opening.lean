import Verif.Spec.Client

/-! How opening a connection for a URL can fail. -/

namespace HttpIo.Spec

variable {ω α σ τ : Type}

/-- The host and the port that the URL names: its own port, or the default of its scheme. -/
def Names (u : Url) (host : Bytes) (port : Nat) : Prop :=
  u.host = some host ∧ (∀ p, u.port = some p → port = p) ∧ (u.port = none → DefaultPort u port)

/-- Opening a connection for `u` fails with error `e`, and the world is then `w'`: no address, no TCP connection to the
first address, or (with TLS compiled in, for https) no session with the named host. -/
inductive OpenFails (net : Net ω α σ τ) (ssl : Bool) (u : Url) (w : ω) : Err → ω → Prop
  | lookup {host : Bytes} {port : Nat} {e : Err} {w' : ω} : Names u host port → net.lookup host port w = (.error e, w') →
      OpenFails net ssl u w (.io .addrNotAvailable) w'
  | noAddress {host : Bytes} {port : Nat} {w' : ω} : Names u host port → net.lookup host port w = (.ok [], w') →
      OpenFails net ssl u w (.io .addrNotAvailable) w'
  | connect {host : Bytes} {port : Nat} {a : α} {as : List α} {e : Err} {w1 w' : ω} : Names u host port →
      net.lookup host port w = (.ok (a :: as), w1) → net.connect a w1 = (.error e, w') → OpenFails net ssl u w e w'
  | tls {host : Bytes} {port : Nat} {a : α} {as : List α} {s : σ} {e : Err} {w1 w2 w' : ω} : Names u host port →
      ssl = true → SecureHttp u → net.lookup host port w = (.ok (a :: as), w1) → net.connect a w1 = (.ok s, w2) →
      net.tls host s w2 = (.err e, w') → OpenFails net ssl u w e w'

end HttpIo.Spec
