import Verif.Spec.Backends
import Verif.Spec.Features
import Verif.Spec.Client

/-! Specification vocabulary for what a build of the crate does about https: its back end, and the network behind it. -/

namespace HttpIo.Spec
variable {ω α ε ν κ χ ι σ τ : Type}

/-- The streams that a network gives for a host are those of `tls`; `sess` is the session of a stream. -/
def GivenBy (net : Net ω α σ τ) (sess : τ → ε) (tls : Bytes → σ → Res (ε × σ) → Prop) : Prop :=
  ∀ host s w x w', net.tls host s w = (.ok x, w') → ∃ s', tls host s (.ok (sess x, s'))

/-- The TLS of the network is `SslClientStream` of the back end, over a library that checks what it is told to check. -/
inductive RunsOn (ν κ χ ι : Type) (net : Net ω α σ τ) (sess : τ → ε) (V : Bytes → ε → Prop) : Backend → Prop
  | openssl (lib : OpenSsl ε κ χ σ) : OpenSslChecks lib V →
      GivenBy net sess (fun host s r => lib.clientNew host s = r) → RunsOn ν κ χ ι net sess V .openssl
  | nativeTls (lib : NativeTls ε ι σ) : NativeTlsChecks lib V →
      GivenBy net sess (fun host s r => lib.clientNew host s = r) → RunsOn ν κ χ ι net sess V .nativeTls
  | rustls (lib : Rustls ε ν κ χ) (t : Tls ε σ) (Aim : Bytes → ε → Prop) : RustlsChecks lib t Aim V →
      GivenBy net sess (fun host s r => ∃ n, lib.clientNew t host s n = .done r) → RunsOn ν κ χ ι net sess V .rustls

/-- Reading and writing do not change who the peer of a session proved to be. -/
structure Lasting [Reader τ] [FiniteWriter τ] (sess : τ → ε) (V : Bytes → ε → Prop) : Prop where
  read : ∀ host (x : τ) n, V host (sess x) → V host (sess (read x n).2)
  write : ∀ host (x : τ) buf, V host (sess x) → V host (sess (write x buf).2)
  flush : ∀ host (x : τ), V host (sess x) → V host (sess (flush x).2)

end HttpIo.Spec
