import Verif.Model.Backends

/-! What is expected of the TLS libraries: that they check what they are told to check, and read PEM texts. `V host e`
says that in the session `e` the peer proved to be `host`, by a certificate of an authority that is trusted. -/

namespace HttpIo.Spec
variable {ε ν κ χ ι σ : Type}

/-- openssl checks a peer if it is told to, against the name it is told, by the authorities it has. It need not check
anything else. -/
def OpenSslChecks (lib : OpenSsl ε κ χ σ) (V : Bytes → ε → Prop) : Prop :=
  ∀ ssl s e s' host, lib.connect ssl s = .ok (e, s') → ssl.systemRoots = true → ssl.verifyPeer = true → ssl.host = some host →
    V host e

/-- native-tls checks a peer unless it is told to accept invalid certificates or host names. -/
def NativeTlsChecks (lib : NativeTls ε ι σ) (V : Bytes → ε → Prop) : Prop :=
  ∀ cfg s e s' host, lib.connect cfg host s = .ok (e, s') → cfg.builtInRoots = true → cfg.acceptInvalidCerts = false →
    cfg.acceptInvalidHostnames = false → V host e

/-- rustls checks a peer with its own verifier: `Aim host` holds of connections made for the host and is kept by
everything done with them; when the handshake of such a connection is over, the peer has proved to be the host. -/
structure RustlsChecks (lib : Rustls ε ν κ χ) (t : Tls ε σ) (Aim V : Bytes → ε → Prop) : Prop where
  new : ∀ host name cfg e, lib.serverName host = .ok name → lib.newClient cfg name = .ok e → cfg.webpkiRoots = true →
    cfg.ownVerifier = true → Aim host e
  write : ∀ host e s r e' s', Aim host e → t.writeTls e s = (r, e', s') → Aim host e'
  read : ∀ host e s r e' s', Aim host e → t.readTls e s = (r, e', s') → Aim host e'
  process : ∀ host e r e', Aim host e → t.process e = (r, e') → Aim host e'
  over : ∀ host e, Aim host e → t.isHandshaking e = false → V host e

/-- What PEM texts have in them. -/
structure Pem (κ χ : Type) where
  keys : Bytes → List κ
  certs : Bytes → List χ

/-- openssl reads the first key and the first certificate of a text. -/
structure OpenSslReads (lib : OpenSsl ε κ χ σ) (pem : Pem κ χ) : Prop where
  key : ∀ p k, lib.keyFromPem p = .ok k → (pem.keys p).head? = some k
  cert : ∀ p c, lib.certFromPem p = .ok c → (pem.certs p).head? = some c

/-- rustls-pemfile reads the first key, if there is one, and all certificates of a text, unless one is faulty. -/
structure RustlsReads (lib : Rustls ε ν κ χ) (pem : Pem κ χ) : Prop where
  key : ∀ p o, lib.privateKey p = .ok o → o = (pem.keys p).head?
  certs : ∀ p, (∀ x ∈ lib.certs p, ∃ c, x = .ok c) → lib.certs p = (pem.certs p).map .ok

/-- native-tls makes an identity of the first key and all certificates. -/
def NativeTlsReads (lib : NativeTls ε (κ × List χ) σ) (pem : Pem κ χ) : Prop :=
  ∀ certPem keyPem i, lib.identityFromPkcs8 certPem keyPem = .ok i →
    (pem.keys keyPem).head? = some i.1 ∧ i.2 = pem.certs certPem

end HttpIo.Spec
