import Verif.Spec.Named
import Verif.Props.Backends

/-! C121: TLS to a host that is given by its IP address. C122: the server name that is sent. -/

namespace HttpIo
open Spec
variable {ε ν κ χ ι σ : Type}

/-- openssl: if it agrees to the settings, there is a stream iff the certificate is trusted and for the host as a *name*,
whether the host is a name or an address. So the property holds of hosts that are names. Missing for the full property:
addresses; see `C121_address` and `C121_false`. -/
theorem C121_openssl_partial (lib : OpenSsl ε κ χ σ) (shown : σ → Shown) (hm : OpenSslMatches lib shown) (host : Bytes)
    (ha : OpenSslAgrees lib host) (s : σ) :
    (∃ r, lib.clientNew host s = .ok r) ↔ (shown s).trusted ∧ (shown s).name host := by
  simp only [C94_openssl_iff, ha.builder, ha.paths, ha.new, ha.check, ha.hostname, true_and]
  rw [hm _ _ rfl rfl]
  simp

/-- openssl: a server that shows a trusted certificate for its address, but for no name, is refused. -/
theorem C121_address (lib : OpenSsl ε κ χ σ) (shown : σ → Shown) (hm : OpenSslMatches lib shown) (host : Bytes)
    (ha : OpenSslAgrees lib host) (s : σ) (hn : ¬ (shown s).name host) : ¬ ∃ r, lib.clientNew host s = .ok r := by
  rw [C121_openssl_partial lib shown hm host ha]
  exact fun h => hn h.2

/-- native-tls: there is a stream iff the certificate is good for the host, be it a name or an address. -/
theorem C121_native (lib : NativeTls ε ι σ) (V4 : Bytes → Prop) (shown : σ → Shown) (hm : NativeTlsMatches lib V4 shown)
    (hb : ∀ cfg, lib.build cfg = .ok ()) (host : Bytes) (s : σ) :
    (∃ r, lib.clientNew host s = .ok r) ↔ GoodFor V4 host (shown s) := by
  simp only [C94_native_iff, hb, true_and]
  rw [hm _ _ _ rfl rfl rfl]
  unfold GoodFor
  by_cases hv : V4 host <;> simp [hv]

/-- An openssl for the witnesses. A transport is the names and the addresses of its peer's certificate, which is trusted. The
session is the server name that was sent. -/
def namedOpenSsl : OpenSsl (Option Bytes) Unit Unit (List Bytes × List Bytes) where
  contextBuilder := .ok ()
  setDefaultVerifyPaths := .ok ()
  sslNew := .ok ()
  setHost _ := .ok ()
  setHostname _ := .ok ()
  connect ssl s :=
    if ssl.verifyPeer = false ∨ (∀ h ∈ ssl.host, h ∈ s.1) ∧ ∀ a ∈ ssl.ip, a ∈ s.2 then .ok (ssl.sni, s) else .err .other
  acceptorBuilder := .ok ()
  keyFromPem _ := .ok ()
  setKey _ := .ok ()
  certFromPem _ := .ok ()
  setCert _ := .ok ()
  checkKey _ _ := .ok ()
  accept _ _ s := .ok (none, s)

/-- Its certificates. -/
def namedShown (s : List Bytes × List Bytes) : Shown := ⟨True, (· ∈ s.1), (· ∈ s.2)⟩

theorem namedOpenSsl_matches : OpenSslMatches namedOpenSsl namedShown := by
  intro ssl s _ h
  simp only [namedOpenSsl, namedShown, h, true_and]
  constructor
  · rintro ⟨r, hr⟩
    split at hr
    · rename_i hx
      rcases hx with hx | hx
      · simp at hx
      · exact ⟨fun h e => hx.1 h e, fun a e => hx.2 a e⟩
    · simp at hr
  · intro hx
    exact ⟨_, if_pos (.inr ⟨fun h e => hx.1 h e, fun a e => hx.2 a e⟩)⟩

theorem namedOpenSsl_agrees (host : Bytes) : OpenSslAgrees namedOpenSsl host := ⟨rfl, rfl, rfl, rfl, rfl⟩

/-- A native-tls of the same kind, for which the one address is 127.0.0.1. -/
def namedNativeTls : NativeTls (Option Bytes) Unit (List Bytes × List Bytes) where
  build _ := .ok ()
  connect cfg host s :=
    if cfg.acceptInvalidHostnames = true ∨ (if host = b!"127.0.0.1" then host ∈ s.2 else host ∈ s.1) then
      .ok (if cfg.useSni ∧ host ≠ b!"127.0.0.1" then some host else none, s)
    else .err .other
  identityFromPkcs8 _ _ := .ok ()
  acceptorNew _ := .ok ()
  accept _ s := .ok (none, s)

theorem namedNativeTls_matches : NativeTlsMatches namedNativeTls (· = b!"127.0.0.1") namedShown := by
  intro cfg host s _ _ h
  simp only [namedNativeTls, namedShown, h, Bool.false_eq_true, false_or, true_and]
  by_cases hh : host = b!"127.0.0.1"
  · simp only [hh, if_true, true_imp_iff, not_true, false_imp_iff, and_true]
    constructor
    · rintro ⟨r, hr⟩
      split at hr
      · assumption
      · simp at hr
    · intro hx; exact ⟨_, if_pos hx⟩
  · simp only [hh, if_false, false_imp_iff, not_false_eq_true, true_imp_iff, true_and]
    constructor
    · rintro ⟨r, hr⟩
      split at hr
      · assumption
      · simp at hr
    · intro hx; exact ⟨_, if_pos hx⟩

/-- As stated the property is false: with openssl, a server that shows a trusted certificate for its address is refused
when it is asked for by that address. -/
theorem C121_false : ¬ ∀ (V4 : Bytes → Prop) (lib : OpenSsl (Option Bytes) Unit Unit (List Bytes × List Bytes))
    (shown : List Bytes × List Bytes → Shown), OpenSslMatches lib shown → ∀ host, OpenSslAgrees lib host → ∀ s,
      GoodFor V4 host (shown s) → ∃ r, lib.clientNew host s = .ok r := by
  intro h
  refine C121_address namedOpenSsl namedShown namedOpenSsl_matches b!"127.0.0.1" (namedOpenSsl_agrees _)
    ([], [b!"127.0.0.1"]) ?_ (h (· = b!"127.0.0.1") namedOpenSsl namedShown namedOpenSsl_matches b!"127.0.0.1"
      (namedOpenSsl_agrees _) ([], [b!"127.0.0.1"]) ?_)
  · simp [namedShown]
  · exact ⟨trivial, .inl ⟨rfl, by simp [namedShown]⟩⟩

/-- Witness: by name the same server is taken by both libraries; by address only native-tls takes it. -/
example : (∃ r, namedOpenSsl.clientNew b!"h" ([b!"h"], [b!"127.0.0.1"]) = .ok r) ∧
    (¬ ∃ r, namedOpenSsl.clientNew b!"127.0.0.1" ([b!"h"], [b!"127.0.0.1"]) = .ok r) ∧
    (∃ r, namedNativeTls.clientNew b!"h" ([b!"h"], [b!"127.0.0.1"]) = .ok r) ∧
    (∃ r, namedNativeTls.clientNew b!"127.0.0.1" ([b!"h"], [b!"127.0.0.1"]) = .ok r) ∧
    ¬ ∃ r, namedNativeTls.clientNew b!"127.0.0.1" ([b!"127.0.0.1"], []) = .ok r := by
  rw [C121_openssl_partial _ _ namedOpenSsl_matches _ (namedOpenSsl_agrees _),
    C121_openssl_partial _ _ namedOpenSsl_matches _ (namedOpenSsl_agrees _),
    C121_native _ _ _ namedNativeTls_matches (fun _ => rfl), C121_native _ _ _ namedNativeTls_matches (fun _ => rfl),
    C121_native _ _ _ namedNativeTls_matches (fun _ => rfl)]
  simp only [GoodFor, namedShown]
  decide

/-- native-tls: the peer of a stream was told the host if that is a name, and nothing if it is an address. -/
theorem C122_native (lib : NativeTls ε ι σ) (V4 : Bytes → Prop) (told : ε → Option Bytes) (ht : NativeTlsTells lib V4 told)
    (host : Bytes) (s s' : σ) (e : ε) (h : lib.clientNew host s = .ok (e, s')) : ProperlyTold V4 host (told e) := by
  rw [C94_native_iff] at h
  obtain ⟨h1, h2⟩ := ht _ _ _ _ _ h.2
  exact ⟨fun hv => h1 (.inr hv), h2 rfl⟩

/-- rustls: the same, and during the whole handshake. -/
theorem C122_rustls (lib : Rustls ε ν κ χ) (t : Tls ε σ) (V4 : Bytes → Prop) (told : ε → Option Bytes)
    (ht : RustlsTells lib t V4 told) (host : Bytes) (s s' : σ) (n : Nat) (e : ε)
    (h : lib.clientNew t host s n = .done (.ok (e, s')) ∨ ∃ pc, lib.clientNew t host s n = .at pc e s') :
    ProperlyTold V4 host (told e) := by
  unfold Rustls.clientNew SslClientStream.new at h
  cases hc : lib.connection host with
  | err _ => rw [hc] at h; simp at h
  | panic => rw [hc] at h; simp at h
  | ok e0 =>
    rw [hc] at h
    dsimp only at h
    unfold Rustls.connection at hc
    simp only [res_bind_ok, orSsl_ok] at hc
    obtain ⟨name, h1, h2⟩ := hc
    obtain ⟨h3, h4⟩ := ht.new _ _ _ _ h1 h2
    have h0 : ProperlyTold V4 host (told e0) := ⟨fun hv => h3 (.inr hv), h4 rfl⟩
    have := Shake.steps_inv (aims_client (t := t) (Aim := fun e => ProperlyTold V4 host (told e))
      (fun e s r e' s' h hw => by rw [ht.write _ _ _ _ _ hw]; exact h)
      (fun e s r e' s' h hw => by rw [ht.read _ _ _ _ _ hw]; exact h)
      (fun e r e' h hw => by rw [ht.process _ _ _ hw]; exact h)) n (x := .at .outer e0 s) h0
    rcases h with h | ⟨pc, h⟩ <;> rw [h] at this <;> exact this

/-- openssl: the peer of a stream was told the host, always. So the property holds of hosts that are names. Missing for
the full property: addresses; see `C122_false`. -/
theorem C122_openssl_partial (lib : OpenSsl ε κ χ σ) (told : ε → Option Bytes) (ht : OpenSslTells lib told) (host : Bytes)
    (s s' : σ) (e : ε) (h : lib.clientNew host s = .ok (e, s')) : told e = some host := by
  rw [C94_openssl_iff] at h
  rw [ht _ _ _ _ h.2.2.2.2.2]

theorem namedOpenSsl_tells : OpenSslTells namedOpenSsl id := by
  intro ssl s e s' h
  simp only [namedOpenSsl] at h
  split at h
  · simp only [Res.ok.injEq, Prod.mk.injEq] at h
    exact h.1.symm
  · simp at h

/-- As stated the property is false: openssl is made to send an address as a server name. -/
theorem C122_false : ¬ ∀ (V4 : Bytes → Prop) (lib : OpenSsl (Option Bytes) Unit Unit (List Bytes × List Bytes))
    (told : Option Bytes → Option Bytes), OpenSslTells lib told → ∀ host s e s', lib.clientNew host s = .ok (e, s') →
      ProperlyTold V4 host (told e) := by
  intro h
  have := (h (· = b!"127.0.0.1") namedOpenSsl id namedOpenSsl_tells b!"127.0.0.1" ([b!"127.0.0.1"], []) (some b!"127.0.0.1")
    ([b!"127.0.0.1"], []) (by decide +kernel)).1 rfl
  simp at this

/-- A rustls of the same kind: a connection is the server name it sends, and whether the handshake is over. -/
def namedRustls : Rustls (Option Bytes × Bool) Bytes Unit Unit where
  serverName h := if h = [] then .err .other else .ok h
  newClient cfg name := .ok (if cfg.enableSni ∧ name ≠ b!"127.0.0.1" then some name else none, false)
  privateKey _ := .ok none
  certs _ := []
  singleCert _ _ := .ok ()

/-- Its handshake. -/
def namedRustlsTls : Tls (Option Bytes × Bool) Unit where
  isHandshaking e := !e.2
  wantsWrite _ := false
  wantsRead _ := true
  writeTls e s := (.ok 0, e, s)
  readTls e s := (.ok 1, (e.1, true), s)
  process e := (.ok (), e)

/-- Witness: native-tls and rustls of this kind tell as expected, and there are streams of both kinds. -/
example : NativeTlsTells namedNativeTls (· = b!"127.0.0.1") id ∧ RustlsTells namedRustls namedRustlsTls (· = b!"127.0.0.1") (·.1) ∧
    namedNativeTls.clientNew b!"h" ([b!"h"], []) = .ok (some b!"h", [b!"h"], []) ∧
    namedNativeTls.clientNew b!"127.0.0.1" ([], [b!"127.0.0.1"]) = .ok (none, [], [b!"127.0.0.1"]) ∧
    namedRustls.clientNew namedRustlsTls b!"h" () 9 = .done (.ok ((some b!"h", true), ())) ∧
    namedRustls.clientNew namedRustlsTls b!"127.0.0.1" () 9 = .done (.ok ((none, true), ())) := by
  refine ⟨?_, ⟨?_, ?_, ?_, ?_⟩, by decide +kernel, by decide +kernel, by decide +kernel, by decide +kernel⟩
  · intro cfg host s e s' h
    by_cases hc : cfg.acceptInvalidHostnames = true ∨ (if host = b!"127.0.0.1" then host ∈ s.2 else host ∈ s.1)
    · replace h := (if_pos hc).symm.trans h
      simp only [Res.ok.injEq, Prod.mk.injEq] at h
      rw [← h.1]
      constructor
      · rintro (h | h) <;> simp [h]
      · intro h1 h2; simp [h1, h2]
    · exact absurd ((if_neg hc).symm.trans h) (by simp)
  · intro host name cfg e h1 h2
    simp only [namedRustls] at h1 h2
    split at h1
    · simp at h1
    · simp only [Res.ok.injEq] at h1 h2
      rw [← h2, ← h1]
      constructor
      · rintro (h | h) <;> simp [h]
      · intro h1 h2; simp [h1, h2]
  · intro e s r e' s' h
    simp only [namedRustlsTls, Prod.mk.injEq] at h
    rw [← h.2.1]
  · intro e s r e' s' h
    simp only [namedRustlsTls, Prod.mk.injEq] at h
    rw [← h.2.1]
  · intro e r e' h
    simp only [namedRustlsTls, Prod.mk.injEq] at h
    rw [← h.2]

end HttpIo
