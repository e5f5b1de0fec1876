import Verif.Model.Tls

/-! What the three TLS back ends ask of their libraries before a handshake: `SslClientStream::new` and
`SslListener::new`. The libraries are given by their answers. Their errors become `ssl::Error`
(src/ssl/openssl.rs:117-127, native_tls.rs:112-128, rustls.rs:200-216), whose text is dropped. -/

namespace HttpIo

/-- The `?` that makes an error of a TLS library into an `ssl::Error` (src/ssl/mod.rs:6 and the `From`s named above). -/
def Res.orSsl {α : Type} : Res α → Res α
  | .ok a => .ok a
  | .err _ => .err .ssl
  | .panic => .panic

/-- What an `openssl::ssl::Ssl` was told before `connect`: whether the system's certificates are its trust anchors,
whether the peer must have a valid certificate (`SslVerifyMode::PEER`), the name that must be in it
(`X509VerifyParamRef::set_host`), the IP address that must be in it (`set_ip`, as text; src/ssl/openssl.rs does not call it), and
the name sent to the peer (`set_hostname`). -/
structure OpenSslSession where
  systemRoots : Bool
  verifyPeer : Bool
  host : Option Bytes
  ip : Option Bytes
  sni : Option Bytes
deriving DecidableEq, Repr

/-- A new `Ssl`: the defaults of `SslContext::builder` are no trust anchors and `SslVerifyMode::NONE`. -/
def OpenSslSession.new : OpenSslSession := ⟨false, false, none, none, none⟩

/-- The openssl crate as src/ssl/openssl.rs uses it. `ε` are sessions, `κ` private keys, `χ` certificates. `accept`
is given the key and the certificates to present. -/
structure OpenSsl (ε κ χ σ : Type) where
  contextBuilder : Res Unit
  setDefaultVerifyPaths : Res Unit
  sslNew : Res Unit
  setHost : Bytes → Res Unit
  setHostname : Bytes → Res Unit
  connect : OpenSslSession → σ → Res (ε × σ)
  acceptorBuilder : Res Unit
  keyFromPem : Bytes → Res κ
  setKey : κ → Res Unit
  certFromPem : Bytes → Res χ
  setCert : χ → Res Unit
  checkKey : κ → χ → Res Unit
  accept : κ → List χ → σ → Res (ε × σ)

namespace OpenSsl
variable {ε κ χ σ : Type}

/-- `SslClientStream::new` (src/ssl/openssl.rs:8-26), without the lines for tests (14-18). -/
def clientNew (lib : OpenSsl ε κ χ σ) (host : Bytes) (s : σ) : Res (ε × σ) := do
  lib.contextBuilder.orSsl
  lib.setDefaultVerifyPaths.orSsl
  let ctx := { OpenSslSession.new with systemRoots := true }
  let ctx := { ctx with verifyPeer := true }
  lib.sslNew.orSsl
  (lib.setHost host).orSsl
  let ssl := { ctx with host := some host }
  (lib.setHostname host).orSsl
  let ssl := { ssl with sni := some host }
  (lib.connect ssl s).orSsl

/-- `SslListener::new` (src/ssl/openssl.rs:85-100): the key of the acceptor and the certificates it presents. `X509::from_pem` (92)
reads the first certificate of the text, and `set_certificate` sets that one; no others are added. -/
def listenerNew (lib : OpenSsl ε κ χ σ) (keyPem certPem : Bytes) : Res (κ × List χ) := do
  lib.acceptorBuilder.orSsl
  let key ← (lib.keyFromPem keyPem).orSsl
  (lib.setKey key).orSsl
  let cert ← (lib.certFromPem certPem).orSsl
  (lib.setCert cert).orSsl
  (lib.checkKey key cert).orSsl
  pure (key, [cert])

/-- `SslListener::accept` (src/ssl/openssl.rs:109-114). -/
def listenerAccept (lib : OpenSsl ε κ χ σ) (l : κ × List χ) (accepted : Res σ) : Res (ε × σ) := do
  let s ← accepted
  (lib.accept l.1 l.2 s).orSsl

end OpenSsl

/-- The settings of a `native_tls::TlsConnectorBuilder` that weaken or strengthen the check of the peer. -/
structure NativeTlsSettings where
  builtInRoots : Bool
  acceptInvalidCerts : Bool
  acceptInvalidHostnames : Bool
  useSni : Bool
deriving DecidableEq, Repr

/-- `TlsConnector::builder()`. -/
def NativeTlsSettings.new : NativeTlsSettings := ⟨true, false, false, true⟩

/-- The native-tls crate as src/ssl/native_tls.rs uses it. `ι` are identities (a certificate with its key). -/
structure NativeTls (ε ι σ : Type) where
  build : NativeTlsSettings → Res Unit
  connect : NativeTlsSettings → Bytes → σ → Res (ε × σ)
  identityFromPkcs8 : (certPem keyPem : Bytes) → Res ι
  acceptorNew : ι → Res Unit
  accept : ι → σ → Res (ε × σ)

namespace NativeTls
variable {ε ι σ : Type}

/-- `SslClientStream::new` (src/ssl/native_tls.rs:20-31), without the lines for tests (24-27). -/
def clientNew (lib : NativeTls ε ι σ) (host : Bytes) (s : σ) : Res (ε × σ) := do
  let builder := NativeTlsSettings.new
  (lib.build builder).orSsl
  (lib.connect builder host s).orSsl

/-- `SslListener::new` (src/ssl/native_tls.rs:90-94). -/
def listenerNew (lib : NativeTls ε ι σ) (keyPem certPem : Bytes) : Res ι := do
  let identity ← (lib.identityFromPkcs8 certPem keyPem).orSsl
  (lib.acceptorNew identity).orSsl
  pure identity

/-- `SslListener::accept` (src/ssl/native_tls.rs:103-108). -/
def listenerAccept (lib : NativeTls ε ι σ) (l : ι) (accepted : Res σ) : Res (ε × σ) := do
  let s ← accepted
  (lib.accept l s).orSsl

end NativeTls

/-- What a `rustls::ClientConfig` says about the check of the peer: the trust anchors are those of webpki-roots; the
verifier is rustls' own (the `dangerous` configuration is not touched); the name is sent. -/
structure RustlsConfig where
  webpkiRoots : Bool
  ownVerifier : Bool
  enableSni : Bool
deriving DecidableEq, Repr

/-- The constructors of rustls as src/ssl/rustls.rs uses them. `ν` are server names, `κ` private keys, `χ` certificates.
`privateKey` is `rustls_pemfile::private_key`, which finds none in a text without one;
`certs` is what the iterator `rustls_pemfile::certs` gives. -/
structure Rustls (ε ν κ χ : Type) where
  serverName : Bytes → Res ν
  newClient : RustlsConfig → ν → Res ε
  privateKey : Bytes → Res (Option κ)
  certs : Bytes → List (Res χ)
  singleCert : List χ → κ → Res Unit

namespace Rustls
variable {ε ν κ χ σ : Type}

/-- The connection of `SslClientStream::new` before the handshake (src/ssl/rustls.rs:45-52), with `root_store`
(19-37). -/
def connection (lib : Rustls ε ν κ χ) (host : Bytes) : Res ε := do
  let config : RustlsConfig := ⟨true, true, true⟩
  let name ← (lib.serverName host).orSsl
  (lib.newClient config name).orSsl

/-- `SslClientStream::new` (src/ssl/rustls.rs:44-73), after `n` steps of the handshake. -/
def clientNew (lib : Rustls ε ν κ χ) (t : Tls ε σ) (host : Bytes) (s : σ) (n : Nat) : Shake ε σ :=
  SslClientStream.new t (lib.connection host) s n

/-- The loop over the certificates (src/ssl/rustls.rs:140-143). -/
def collectCerts : List (Res χ) → Res (List χ)
  | [] => .ok []
  | x :: xs => do
    let cert ← x.orSsl
    let certs ← collectCerts xs
    pure (cert :: certs)

/-- `Option::unwrap`. -/
def unwrap : Option κ → Res κ
  | some k => .ok k
  | none => .panic

/-- `SslListener::new` (src/ssl/rustls.rs:133-154). The key and the certificates that the server
presents. The `unwrap` (136) panics if the text has no key. -/
def listenerNew (lib : Rustls ε ν κ χ) (keyPem certPem : Bytes) : Res (κ × List χ) := do
  let found ← (lib.privateKey keyPem).orSsl
  let key ← Rustls.unwrap found
  let certs ← collectCerts (lib.certs certPem)
  (lib.singleCert certs key).orSsl
  pure (key, certs)

end Rustls
end HttpIo
