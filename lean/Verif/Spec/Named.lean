import Verif.Model.Backends

/-! Whom a certificate is for: host names and IP addresses. -/

namespace HttpIo.Spec
variable {ε ν κ χ ι σ : Type}

/-- What the certificate that a peer shows is good for: whether a trusted authority signed it, the host names it is for
(`dNSName`, RFC 6125) and the IP addresses it is for (`iPAddress`, RFC 5280 section 4.2.1.6; here as text). -/
structure Shown where
  trusted : Prop
  name : Bytes → Prop
  address : Bytes → Prop

/-- openssl, told to check a peer by the system's authorities, connects iff the certificate is trusted, is for the name it
was told, if any (`X509_check_host` looks at host names only), and for the address it was told, if any. -/
def OpenSslMatches (lib : OpenSsl ε κ χ σ) (shown : σ → Shown) : Prop :=
  ∀ ssl s, ssl.systemRoots = true → ssl.verifyPeer = true →
    ((∃ r, lib.connect ssl s = .ok r) ↔
      (shown s).trusted ∧ (∀ h, ssl.host = some h → (shown s).name h) ∧ ∀ a, ssl.ip = some a → (shown s).address a)

/-- openssl agrees to the settings it is asked for. -/
structure OpenSslAgrees (lib : OpenSsl ε κ χ σ) (host : Bytes) : Prop where
  builder : lib.contextBuilder = .ok ()
  paths : lib.setDefaultVerifyPaths = .ok ()
  new : lib.sslNew = .ok ()
  check : lib.setHost host = .ok ()
  hostname : lib.setHostname host = .ok ()

/-- native-tls, if it is not told to accept invalid certificates or names, connects iff the certificate is trusted and is
for the host: as an address if the host is one (`V4`), and else as a name. -/
def NativeTlsMatches (lib : NativeTls ε ι σ) (V4 : Bytes → Prop) (shown : σ → Shown) : Prop :=
  ∀ cfg host s, cfg.builtInRoots = true → cfg.acceptInvalidCerts = false → cfg.acceptInvalidHostnames = false →
    ((∃ r, lib.connect cfg host s = .ok r) ↔
      (shown s).trusted ∧ (V4 host → (shown s).address host) ∧ (¬ V4 host → (shown s).name host))

/-- The certificate is good for the host: for the address if the host is one, and else for the name. -/
def GoodFor (V4 : Bytes → Prop) (host : Bytes) (x : Shown) : Prop :=
  x.trusted ∧ ((V4 host ∧ x.address host) ∨ (¬ V4 host ∧ x.name host))

/-- openssl sends the server name it was told, whatever it is. `told e` is the server name that the peer of the session
`e` was sent. -/
def OpenSslTells (lib : OpenSsl ε κ χ σ) (told : ε → Option Bytes) : Prop :=
  ∀ ssl s e s', lib.connect ssl s = .ok (e, s') → told e = ssl.sni

/-- native-tls sends the host as server name if it is told to use server names, but not if it is an address. -/
def NativeTlsTells (lib : NativeTls ε ι σ) (V4 : Bytes → Prop) (told : ε → Option Bytes) : Prop :=
  ∀ cfg host s e s', lib.connect cfg host s = .ok (e, s') →
    (cfg.useSni = false ∨ V4 host → told e = none) ∧ (cfg.useSni = true → ¬ V4 host → told e = some host)

/-- rustls does so too; what a connection has sent, or will send, does not change. -/
structure RustlsTells (lib : Rustls ε ν κ χ) (t : Tls ε σ) (V4 : Bytes → Prop) (told : ε → Option Bytes) : Prop where
  new : ∀ host name cfg e, lib.serverName host = .ok name → lib.newClient cfg name = .ok e →
    (cfg.enableSni = false ∨ V4 host → told e = none) ∧ (cfg.enableSni = true → ¬ V4 host → told e = some host)
  write : ∀ e s r e' s', t.writeTls e s = (r, e', s') → told e' = told e
  read : ∀ e s r e' s', t.readTls e s = (r, e', s') → told e' = told e
  process : ∀ e r e', t.process e = (r, e') → told e' = told e

/-- RFC 6066 section 3: the server name is the name of the host; an IP address is not sent as one. -/
def ProperlyTold (V4 : Bytes → Prop) (host : Bytes) (name : Option Bytes) : Prop :=
  (V4 host → name = none) ∧ (¬ V4 host → name = some host)

end HttpIo.Spec
