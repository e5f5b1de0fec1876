import Verif.Spec.Backends
import Verif.Props.Tls
import Verif.Props.Connect

/-! C94: every TLS back end has the peer proved to be the URL's host. C95: what a TLS listener presents. C96: making a
TLS listener does not panic. -/

namespace HttpIo
open Spec
variable {ε ν κ χ ι σ : Type}

theorem orSsl_ok {α : Type} {x : Res α} {a : α} : x.orSsl = .ok a ↔ x = .ok a := by
  cases x <;> simp [Res.orSsl]

theorem res_bind_ok {α β : Type} {x : Res α} {f : α → Res β} {b : β} : (x >>= f) = .ok b ↔ ∃ a, x = .ok a ∧ f a = .ok b := by
  show x.bind f = .ok b ↔ _
  cases x <;> simp [Res.bind]

theorem res_pure_ok {α : Type} {a b : α} : (pure a : Res α) = .ok b ↔ a = b := by
  show Res.ok a = .ok b ↔ _
  simp

/-- openssl: a stream is handed out exactly if the library agrees to everything asked of it and `connect` gives a session
that was to be checked for the host, by the system's authorities, with the host's name sent. -/
theorem C94_openssl_iff (lib : OpenSsl ε κ χ σ) (host : Bytes) (s : σ) (r : ε × σ) :
    lib.clientNew host s = .ok r ↔
      lib.contextBuilder = .ok () ∧ lib.setDefaultVerifyPaths = .ok () ∧ lib.sslNew = .ok () ∧ lib.setHost host = .ok () ∧
      lib.setHostname host = .ok () ∧ lib.connect ⟨true, true, some host, none, some host⟩ s = .ok r := by
  unfold OpenSsl.clientNew
  simp only [res_bind_ok, orSsl_ok]
  constructor
  · rintro ⟨_, h1, _, h2, _, h3, _, h4, _, h5, h6⟩
    exact ⟨h1, h2, h3, h4, h5, h6⟩
  · rintro ⟨h1, h2, h3, h4, h5, h6⟩
    exact ⟨_, h1, _, h2, _, h3, _, h4, _, h5, h6⟩

/-- openssl: the peer of a stream proved to be the host. -/
theorem C94_openssl (lib : OpenSsl ε κ χ σ) (V : Bytes → ε → Prop) (hV : OpenSslChecks lib V) (host : Bytes) (s s' : σ) (e : ε)
    (h : lib.clientNew host s = .ok (e, s')) : V host e := by
  rw [C94_openssl_iff] at h
  exact hV _ _ _ _ _ h.2.2.2.2.2 rfl rfl rfl

/-- native-tls: the same equivalence. -/
theorem C94_native_iff (lib : NativeTls ε ι σ) (host : Bytes) (s : σ) (r : ε × σ) :
    lib.clientNew host s = .ok r ↔
      lib.build ⟨true, false, false, true⟩ = .ok () ∧ lib.connect ⟨true, false, false, true⟩ host s = .ok r := by
  unfold NativeTls.clientNew NativeTlsSettings.new
  simp only [res_bind_ok, orSsl_ok]
  constructor
  · rintro ⟨_, h1, h2⟩
    exact ⟨h1, h2⟩
  · rintro ⟨h1, h2⟩
    exact ⟨_, h1, h2⟩

/-- native-tls: the peer of a stream proved to be the host. -/
theorem C94_native (lib : NativeTls ε ι σ) (V : Bytes → ε → Prop) (hV : NativeTlsChecks lib V) (host : Bytes) (s s' : σ) (e : ε)
    (h : lib.clientNew host s = .ok (e, s')) : V host e := by
  rw [C94_native_iff] at h
  exact hV _ _ _ _ _ h.2 rfl rfl rfl

/-- A handshake whose connection aims at the host all along. -/
def AimsAt (Aim : ε → Prop) : Shake ε σ → Prop
  | .at _ e _ => Aim e
  | .done (.ok (e, _)) => Aim e
  | .done _ => True

theorem aims_client {t : Tls ε σ} {Aim : ε → Prop} (hw : ∀ e s r e' s', Aim e → t.writeTls e s = (r, e', s') → Aim e')
    (hr : ∀ e s r e' s', Aim e → t.readTls e s = (r, e', s') → Aim e') (hp : ∀ e r e', Aim e → t.process e = (r, e') → Aim e')
    (x : Shake ε σ) (h : AimsAt Aim x) : AimsAt Aim (t.clientStep x) := by
  match x with
  | .at .outer e s => exact h
  | .at .writing e s =>
    show AimsAt Aim (t.writeRound .reading e s)
    unfold Tls.writeRound
    split
    · rcases hx : t.writeTls e s with ⟨r, e', s'⟩
      have := hw _ _ _ _ _ h hx
      match r with
      | .ok 0 => exact trivial
      | .ok (n + 1) => exact this
      | .err _ => exact trivial
      | .panic => exact trivial
    · exact h
  | .at .reading e s =>
    show AimsAt Aim (t.readRound .outer e s)
    unfold Tls.readRound
    split
    · rcases hx : t.readTls e s with ⟨r, e', s'⟩
      have := hr _ _ _ _ _ h hx
      match r with
      | .ok 0 => exact this
      | .ok (n + 1) =>
        dsimp only
        rcases hy : t.process e' with ⟨r', e''⟩
        have := hp _ _ _ this hy
        match r' with
        | .ok () => exact this
        | .err _ => exact trivial
        | .panic => exact trivial
      | .err _ => exact trivial
      | .panic => exact trivial
    · exact h
  | .at .after e s =>
    show AimsAt Aim (t.finish e s)
    unfold Tls.finish
    split
    · exact trivial
    · exact h
  | .done r => exact h

/-- rustls: the peer of a stream proved to be the host, whenever the call returns. -/
theorem C94_rustls (lib : Rustls ε ν κ χ) (t : Tls ε σ) (Aim V : Bytes → ε → Prop) (hV : RustlsChecks lib t Aim V) (host : Bytes)
    (s s' : σ) (n : Nat) (e : ε) (h : lib.clientNew t host s n = .done (.ok (e, s'))) : V host e := by
  unfold Rustls.clientNew at h
  refine hV.over _ _ ?_ (C57_client t _ s n e s' h)
  unfold SslClientStream.new at h
  cases hc : lib.connection host with
  | err _ => rw [hc] at h; simp at h
  | panic => rw [hc] at h; simp at h
  | ok e0 =>
    rw [hc] at h
    dsimp only at h
    unfold Rustls.connection at hc
    simp only [res_bind_ok, orSsl_ok] at hc
    obtain ⟨name, h1, h2⟩ := hc
    have h0 : Aim host e0 := hV.new _ _ _ _ h1 h2 rfl rfl
    have := Shake.steps_inv (aims_client (Aim := Aim host) (hV.write host) (hV.read host) (hV.process host)) n
      (x := .at .outer e0 s) h0
    rw [h] at this
    exact this

/-- What does not lead to a stream is an `SslError`, if the libraries do not panic: openssl and native-tls. -/
theorem C94_errors (lib : OpenSsl ε κ χ σ) (lib' : NativeTls ε ι σ) (host : Bytes) (s : σ) :
    (∀ err, lib.clientNew host s = .err err → err = .ssl) ∧ (∀ err, lib'.clientNew host s = .err err → err = .ssl) := by
  have key : ∀ {α β : Type} {x : Res α} {f : α → Res β} {err : Err}, (∀ a err, f a = .err err → err = .ssl) →
      (x.orSsl >>= f) = .err err → err = .ssl := by
    intro α β x f err hf h
    cases x with
    | ok a => exact hf a err h
    | err e => simpa [Res.orSsl, Bind.bind, Res.bind] using h.symm
    | panic => simp [Res.orSsl, Bind.bind, Res.bind] at h
  have last : ∀ {α : Type} {x : Res α} {err : Err}, x.orSsl = .err err → err = .ssl := by
    intro α x err h
    cases x <;> simp [Res.orSsl] at h
    exact h.symm
  refine ⟨fun err h => ?_, fun err h => ?_⟩
  · unfold OpenSsl.clientNew at h
    exact key (fun _ _ => key fun _ _ => key fun _ _ => key fun _ _ => key fun _ _ => last) h
  · unfold NativeTls.clientNew at h
    exact key (fun _ _ => last) h

/-- A listener: the error of a connection that did not come is passed on; a handshake that fails is an `SslError`. -/
theorem C94_accept_errors (lib : OpenSsl ε κ χ σ) (l : κ × List χ) (lib' : NativeTls ε ι σ) (i : ι) :
    (∀ e, lib.listenerAccept l (.err e) = .err e ∧ lib'.listenerAccept i (.err e) = .err e) ∧
    ∀ s err, lib.listenerAccept l (.ok s) = .err err ∨ lib'.listenerAccept i (.ok s) = .err err → err = .ssl := by
  refine ⟨fun e => ⟨rfl, rfl⟩, fun s err h => ?_⟩
  have last : ∀ {α : Type} {x : Res α} {err : Err}, x.orSsl = .err err → err = .ssl := by
    intro α x err h
    cases x <;> simp [Res.orSsl] at h
    exact h.symm
  rcases h with h | h
  · exact last (x := lib.accept l.1 l.2 s) h
  · exact last (x := lib'.accept i s) h

/-- rustls: whatever fails on the client's side, the configuration, the name or the handshake, is an `SslError`; and on a
listener's side, but for the error of a connection that did not come, which is passed on. -/
theorem C94_rustls_errors {α : Type} (t : Tls ε σ) (a : TlsAcceptor α ε σ) (conn : Res ε) (s : σ) (n : Nat) (err : Err) :
    (SslClientStream.new t conn s n = .done (.err err) → err = .ssl) ∧
    (SslListener.accept a t (.ok s) n = .done (.err err) → err = .ssl) ∧
    SslListener.accept a t (.err err) n = .done (.err err) := by
  have write : ∀ next e (s : σ), t.writeRound next e s = .done (.err err) → err = .ssl := by
    intro next e s h
    unfold Tls.writeRound at h
    split at h
    · split at h <;> simp at h
      exact h.symm
    · simp at h
  have read : ∀ next e (s : σ), t.readRound next e s = .done (.err err) → err = .ssl := by
    intro next e s h
    unfold Tls.readRound at h
    split at h
    · split at h <;> try (simp at h)
      · split at h <;> simp at h
        exact h.symm
      · exact h.symm
    · simp at h
  have fin : ∀ e (s : σ), t.finish e s = .done (.err err) → err = .ssl := by
    intro e s h
    unfold Tls.finish at h
    split at h <;> simp at h
    exact h.symm
  have client : ∀ x, (x = .done (.err err) → err = .ssl) → t.clientStep x = .done (.err err) → err = .ssl := by
    intro x hx h
    unfold Tls.clientStep at h
    split at h
    · simp at h
    · exact write _ _ _ h
    · exact read _ _ _ h
    · exact fin _ _ h
    · exact hx h
  have server : ∀ x, (x = .done (.err err) → err = .ssl) → t.serverStep x = .done (.err err) → err = .ssl := by
    intro x hx h
    unfold Tls.serverStep at h
    split at h
    · simp at h
    · exact read _ _ _ h
    · exact write _ _ _ h
    · exact fin _ _ h
    · exact hx h
  have steps : ∀ (step : Shake ε σ → Shake ε σ), (∀ x, (x = .done (.err err) → err = .ssl) → step x = .done (.err err) → err = .ssl) →
      ∀ n x, (x = .done (.err err) → err = .ssl) → Shake.steps step n x = .done (.err err) → err = .ssl := by
    intro step hs n
    induction n with
    | zero => exact fun x hx => hx
    | succ n ih => exact fun x hx => ih _ (hs x hx)
  refine ⟨fun h => ?_, fun h => ?_, rfl⟩
  · unfold SslClientStream.new at h
    split at h
    · exact steps _ client n _ (by simp) h
    · simp at h; exact h.symm
    · simp at h
  · refine steps _ server n _ (fun h => ?_) h
    unfold TlsAcceptor.start at h
    split at h
    · simp at h; exact h.symm
    · simp at h
    · split at h
      · simp at h; exact h.symm
      · simp at h
      · simp at h; exact h.symm
      · split at h
        · simp at h; exact h.symm
        · simp at h
        · simp at h

/-- A network whose TLS is a back end: the streams it gives are those of the back end. `sess` is the session of a stream.
-/
def BackedBy {ω α τ : Type} (net : Net ω α σ τ) (sess : τ → ε) (tls : Bytes → σ → Res (ε × σ) → Prop) : Prop :=
  ∀ host s w x w', net.tls host s w = (.ok x, w') → ∃ s', tls host s (.ok (sess x, s'))

/-- Over every history of the pooled client, whichever the back end: a request to an https URL gets a session whose peer
proved to be the URL's host. -/
theorem C94_https [CaseMap] {ω α β τ : Type} {c : Cfg} [DecidableEq α] [LawfulReader σ] [LawfulReader τ] [LawfulWriter σ]
    [LawfulWriter τ] (net : Net ω α σ τ) (sess : τ → ε) (V : Bytes → ε → Prop)
    (hb : (∃ lib : OpenSsl ε κ χ σ, OpenSslChecks lib V ∧ BackedBy net sess fun host s r => lib.clientNew host s = r) ∨
      (∃ lib : NativeTls ε ι σ, NativeTlsChecks lib V ∧ BackedBy net sess fun host s r => lib.clientNew host s = r) ∨
      ∃ (lib : Rustls ε ν κ χ) (t : Tls ε σ) (Aim : Bytes → ε → Prop), RustlsChecks lib t Aim V ∧
        BackedBy net sess fun host s r => ∃ n, lib.clientNew t host s n = .done r)
    (hread : ∀ host (x : τ) n, V host (sess x) → V host (sess (read x n).2))
    (hwrite : ∀ host (x : τ) buf, V host (sess x) → V host (sess (write x buf).2))
    (hflush : ∀ host (x : τ), V host (sess x) → V host (sess (flush x).2))
    (xs : List (Exchange c (StreamEither σ τ) β)) (hxs : ∀ x ∈ xs, x.Confined) (w : ω) (u : Url) (hl : LowerScheme u)
    (hs : SecureHttp u) (id : StreamId α) (st : StreamEither σ τ)
    (h : ((history (net.connector true) xs HttpClient.new w).2.1.getStream (net.connector true) u
      (history (net.connector true) xs HttpClient.new w).2.2).1 = .ok (id, st)) :
    ∃ host x, u.host = some host ∧ st = .B x ∧ V host (sess x) := by
  have hv : Verified net fun host (x : τ) => V host (sess x) := by
    refine ⟨fun host s w x w' hx => ?_, hread, hwrite, hflush⟩
    rcases hb with ⟨lib, hV, hb⟩ | ⟨lib, hV, hb⟩ | ⟨lib, t, Aim, hV, hb⟩
    · obtain ⟨s', this⟩ := hb host s w x w' hx
      exact C94_openssl lib V hV host s s' _ this
    · obtain ⟨s', this⟩ := hb host s w x w' hx
      exact C94_native lib V hV host s s' _ this
    · obtain ⟨s', n, this⟩ := hb host s w x w' hx
      exact C94_rustls lib t Aim V hV host s s' n _ this
  obtain ⟨host, h1, ⟨_, x, h2, h3⟩ | ⟨h2, _⟩⟩ := C49_session_partial net _ hv xs hxs w u hl id st h
  · exact ⟨host, x, h1, h2, h3⟩
  · have ha : AsciiText u.scheme := fun b hb => (hl b hb).1
    unfold SecureHttp at hs
    unfold PlainHttp at h2
    rw [utf8_https, sameText_lower ha _ (by decide) (by decide)] at hs
    rw [utf8_http, sameText_lower ha _ (by decide) (by decide), hs] at h2
    exact absurd h2 (by decide)

/-- Witness: `greetNet`, whose sessions begin by sending the host, is the network of an openssl that does so; and it gives a
connection for an https URL. -/
example : let _ := asciiCase
    let lib : OpenSsl Bytes Unit Unit (Duplex Wire Sink) :=
      { contextBuilder := .ok (), setDefaultVerifyPaths := .ok (), sslNew := .ok (), setHost := fun _ => .ok (),
        setHostname := fun _ => .ok (),
        connect := fun ssl s => .ok (ssl.host.getD [], ⟨s.rd, { s.wr with got := ssl.host.getD [] }⟩),
        acceptorBuilder := .ok (), keyFromPem := fun _ => .ok (), setKey := fun _ => .ok (), certFromPem := fun _ => .ok (),
        setCert := fun _ => .ok (), checkKey := fun _ _ => .ok (), accept := fun _ _ s => .ok ([], s) }
    let V : Bytes → Bytes → Prop := fun host e => host <+: e
    OpenSslChecks lib V ∧ (BackedBy greetNet sent fun host s r => lib.clientNew host s = r) ∧
    (∀ host (x : Duplex Wire Sink) n, V host (sent x) → V host (sent (read x n).2)) ∧
    (∀ host (x : Duplex Wire Sink) buf, V host (sent x) → V host (sent (write x buf).2)) ∧
    (∀ host (x : Duplex Wire Sink), V host (sent x) → V host (sent (flush x).2)) ∧
    LowerScheme sampleUrl ∧ SecureHttp sampleUrl ∧
    (HttpClient.new.getStream (greetNet.connector true) sampleUrl ()).1 =
      .ok (⟨1, b!"h", true⟩, .B ⟨⟨[]⟩, ⟨b!"h", 0, []⟩⟩) := by
  intro _ lib V
  refine ⟨?_, ?_, greetNet_verified.read, greetNet_verified.write, greetNet_verified.flush,
    by unfold LowerScheme sampleUrl; decide, by unfold SecureHttp; rw [utf8_https]; exact sameText_refl _, by decide +kernel⟩
  · intro ssl s e s' host h _ _ h3
    simp only [lib, Res.ok.injEq, Prod.mk.injEq] at h
    show host <+: e
    rw [← h.1, h3]; exact List.prefix_refl _
  · intro host s w x w' h
    simp only [greetNet, Prod.mk.injEq, Res.ok.injEq] at h
    refine ⟨⟨s.rd, { s.wr with got := host }⟩, (C94_openssl_iff lib host s _).2 ⟨rfl, rfl, rfl, rfl, rfl, ?_⟩⟩
    rw [← h.1]; rfl

/-- An openssl for the witnesses. A transport is the name for which its peer has a certificate; that is the session too.
Only a session that must verify the peer refuses another name. A key or certificate is a byte; a text has the keys
and certificates in it one after the other. -/
def toyOpenSsl : OpenSsl Bytes UInt8 UInt8 Bytes where
  contextBuilder := .ok ()
  setDefaultVerifyPaths := .ok ()
  sslNew := .ok ()
  setHost h := if h = [] then .err .other else .ok ()
  setHostname _ := .ok ()
  connect ssl s := if ssl.verifyPeer ∧ (ssl.systemRoots = false ∨ ssl.host.getD s ≠ s) then .err .other else .ok (s, s)
  acceptorBuilder := .ok ()
  keyFromPem p := match p with | k :: _ => .ok k | [] => .err .other
  setKey _ := .ok ()
  certFromPem p := match p with | c :: _ => .ok c | [] => .err .other
  setCert _ := .ok ()
  checkKey k c := if k = c then .ok () else .err .other
  accept _ _ s := .ok (s, s)

/-- A native-tls of the same kind. -/
def toyNativeTls : NativeTls Bytes (UInt8 × List UInt8) Bytes where
  build _ := .ok ()
  connect cfg host s := if cfg.acceptInvalidHostnames = false ∧ host ≠ s then .err .other else .ok (s, s)
  identityFromPkcs8 certPem keyPem :=
    match keyPem, certPem with
    | k :: _, c :: cs => if k = c then .ok (k, c :: cs) else .err .other
    | _, _ => .err .other
  acceptorNew _ := .ok ()
  accept _ s := .ok (s, s)

/-- A rustls of the same kind: a connection is the name it is for, and whether the handshake is over. Handshakes read the
peer's name. -/
def toyRustls : Rustls (Bytes × Bool) Bytes UInt8 UInt8 where
  serverName h := if h = [] then .err .other else .ok h
  newClient _ name := .ok (name, false)
  privateKey p := .ok p.head?
  certs p := p.map .ok
  singleCert cs k := if cs.head? = some k then .ok () else .err .other

/-- Its handshake. -/
def toyRustlsTls : Tls (Bytes × Bool) Bytes where
  isHandshaking e := !e.2
  wantsWrite _ := false
  wantsRead _ := true
  writeTls e s := (.ok 0, e, s)
  readTls e s := if s = e.1 then (.ok 1, (e.1, true), s) else (.err .other, e, s)
  process e := (.ok (), e)

/-- What is in the texts of these libraries. -/
def toyPem : Pem UInt8 UInt8 := ⟨id, id⟩

/-- Witness: they check as expected; a peer with the right name gets a stream, another does not. -/
example : OpenSslChecks toyOpenSsl (fun host e => e = host) ∧ NativeTlsChecks toyNativeTls (fun host e => e = host) ∧
    RustlsChecks toyRustls toyRustlsTls (fun host e => e.1 = host) (fun host e => e.1 = host) ∧
    toyOpenSsl.clientNew b!"h" b!"h" = .ok (b!"h", b!"h") ∧ toyOpenSsl.clientNew b!"h" b!"evil" = .err .ssl ∧
    toyOpenSsl.clientNew b!"" b!"h" = .err .ssl ∧
    toyNativeTls.clientNew b!"h" b!"h" = .ok (b!"h", b!"h") ∧ toyNativeTls.clientNew b!"h" b!"evil" = .err .ssl ∧
    toyRustls.clientNew toyRustlsTls b!"h" b!"h" 9 = .done (.ok ((b!"h", true), b!"h")) ∧
    toyRustls.clientNew toyRustlsTls b!"h" b!"evil" 9 = .done (.err .ssl) := by
  refine ⟨?_, ?_, ⟨?_, ?_, ?_, ?_, ?_⟩, by decide +kernel, by decide +kernel, by decide +kernel, by decide +kernel,
    by decide +kernel, by decide +kernel, by decide +kernel⟩
  · intro ssl s e s' host h h1 h2 h3
    simp only [toyOpenSsl] at h
    split at h
    · simp at h
    · rename_i hn
      simp only [Res.ok.injEq, Prod.mk.injEq] at h
      simp [h1, h2, h3] at hn
      rw [← h.1, hn]
  · intro cfg s e s' host h h1 h2 h3
    simp only [toyNativeTls] at h
    split at h
    · simp at h
    · rename_i hn
      simp only [Res.ok.injEq, Prod.mk.injEq] at h
      simp [h3] at hn
      rw [← h.1, hn]
  · intro host name cfg e h1 h2 _ _
    simp only [toyRustls] at h1 h2
    split at h1
    · simp at h1
    · simp only [Res.ok.injEq] at h1 h2
      rw [← h2, h1]
  · intro host e s r e' s' h hw
    simp only [toyRustlsTls, Prod.mk.injEq] at hw
    rw [← hw.2.1]; exact h
  · intro host e s r e' s' h hr
    simp only [toyRustlsTls] at hr
    split at hr <;> simp only [Prod.mk.injEq] at hr <;> rw [← hr.2.1] <;> exact h
  · intro host e r e' h hp
    simp only [toyRustlsTls, Prod.mk.injEq] at hp
    rw [← hp.2]; exact h
  · intro host e h _
    exact h

/-- rustls: a listener presents every certificate of the text it was given, in order, and has its key. -/
theorem C95_rustls_partial (lib : Rustls ε ν κ χ) (pem : Pem κ χ) (hp : RustlsReads lib pem) (keyPem certPem : Bytes) (key : κ)
    (chain : List χ) (h : lib.listenerNew keyPem certPem = .ok (key, chain)) :
    (pem.keys keyPem).head? = some key ∧ chain = pem.certs certPem := by
  have hcol : ∀ (l : List (Res χ)) (cs : List χ), Rustls.collectCerts l = .ok cs → l = cs.map .ok := by
    intro l
    induction l with
    | nil => intro cs h; simp only [Rustls.collectCerts, Res.ok.injEq] at h; rw [← h]; rfl
    | cons x l ih =>
      intro cs h
      simp only [Rustls.collectCerts, res_bind_ok, orSsl_ok, res_pure_ok] at h
      obtain ⟨c, rfl, cs', h2, rfl⟩ := h
      rw [ih _ h2]; rfl
  unfold Rustls.listenerNew at h
  simp only [res_bind_ok, orSsl_ok, res_pure_ok] at h
  obtain ⟨o, hk, k, h1, cs, h2, _, _, h4⟩ := h
  simp only [Prod.mk.injEq] at h4
  obtain ⟨rfl, rfl⟩ := h4
  constructor
  · rw [← hp.key _ _ hk]
    cases o with
    | none => simp [Rustls.unwrap] at h1
    | some k' => simpa [Rustls.unwrap] using h1
  · have hl := hcol _ _ h2
    have := hp.certs certPem (by intro x hx; rw [hl] at hx; obtain ⟨c, _, rfl⟩ := List.mem_map.1 hx; exact ⟨c, rfl⟩)
    rw [hl] at this
    have hinj : ∀ {a b : List χ}, a.map Res.ok = b.map Res.ok → a = b := by
      intro a
      induction a with
      | nil => intro b h; cases b <;> simp at h ⊢
      | cons x a ih =>
        intro b h
        cases b with
        | nil => simp at h
        | cons y b => simp only [List.map_cons, List.cons.injEq, Res.ok.injEq] at h; rw [h.1, ih h.2]
    exact hinj this

/-- native-tls: the same. -/
theorem C95_native_partial (lib : NativeTls ε (κ × List χ) σ) (pem : Pem κ χ) (hp : NativeTlsReads lib pem)
    (keyPem certPem : Bytes) (key : κ) (chain : List χ) (h : lib.listenerNew keyPem certPem = .ok (key, chain)) :
    (pem.keys keyPem).head? = some key ∧ chain = pem.certs certPem := by
  unfold NativeTls.listenerNew at h
  simp only [res_bind_ok, orSsl_ok, res_pure_ok] at h
  obtain ⟨i, h1, _, _, rfl⟩ := h
  exact hp _ _ _ h1

/-- openssl: a listener presents the first certificate of the text, and no other. -/
theorem C95_openssl_partial (lib : OpenSsl ε κ χ σ) (pem : Pem κ χ) (hp : OpenSslReads lib pem) (keyPem certPem : Bytes) (key : κ)
    (chain : List χ) (h : lib.listenerNew keyPem certPem = .ok (key, chain)) :
    (pem.keys keyPem).head? = some key ∧ chain = (pem.certs certPem).take 1 ∧
    (chain = pem.certs certPem ↔ (pem.certs certPem).length = 1) := by
  unfold OpenSsl.listenerNew at h
  simp only [res_bind_ok, orSsl_ok, res_pure_ok] at h
  obtain ⟨_, _, k, h1, _, _, ch, h2, _, _, _, _, h3⟩ := h
  simp only [Prod.mk.injEq] at h3
  obtain ⟨rfl, rfl⟩ := h3
  have hc := hp.cert _ _ h2
  refine ⟨hp.key _ _ h1, ?_⟩
  cases hl : pem.certs certPem with
  | nil => rw [hl] at hc; simp at hc
  | cons x l =>
    rw [hl] at hc
    simp only [List.head?_cons, Option.some.injEq] at hc
    subst hc
    refine ⟨rfl, ?_⟩
    cases l <;> simp

/-- … and every session that a listener accepts is made with this key and with these certificates: openssl. -/
theorem C95_openssl_accepts_partial (lib : OpenSsl ε κ χ σ) (pem : Pem κ χ) (hp : OpenSslReads lib pem) (keyPem certPem : Bytes)
    (l : κ × List χ) (h : lib.listenerNew keyPem certPem = .ok l) (accepted : Res σ) (r : ε × σ) :
    lib.listenerAccept l accepted = .ok r ↔ ∃ s key, accepted = .ok s ∧ (pem.keys keyPem).head? = some key ∧
      lib.accept key ((pem.certs certPem).take 1) s = .ok r := by
  obtain ⟨key, chain⟩ := l
  obtain ⟨h1, h2, _⟩ := C95_openssl_partial lib pem hp keyPem certPem key chain h
  unfold OpenSsl.listenerAccept
  simp only [res_bind_ok, orSsl_ok]
  rw [h1, h2]
  constructor
  · rintro ⟨s, g1, g2⟩; exact ⟨s, key, g1, rfl, g2⟩
  · rintro ⟨s, k, g1, g2, g3⟩
    simp only [Option.some.injEq] at g2
    subst g2
    exact ⟨s, g1, g3⟩

/-- native-tls. -/
theorem C95_native_accepts_partial (lib : NativeTls ε (κ × List χ) σ) (pem : Pem κ χ) (hp : NativeTlsReads lib pem)
    (keyPem certPem : Bytes) (l : κ × List χ) (h : lib.listenerNew keyPem certPem = .ok l) (accepted : Res σ) (r : ε × σ) :
    lib.listenerAccept l accepted = .ok r ↔ ∃ s key, accepted = .ok s ∧ (pem.keys keyPem).head? = some key ∧
      lib.accept (key, pem.certs certPem) s = .ok r := by
  obtain ⟨key, chain⟩ := l
  obtain ⟨h1, h2⟩ := C95_native_partial lib pem hp keyPem certPem key chain h
  unfold NativeTls.listenerAccept
  simp only [res_bind_ok, orSsl_ok]
  rw [h1, h2]
  constructor
  · rintro ⟨s, g1, g2⟩; exact ⟨s, key, g1, rfl, g2⟩
  · rintro ⟨s, k, g1, g2, g3⟩
    simp only [Option.some.injEq] at g2
    subst g2
    exact ⟨s, g1, g3⟩

/-- … so that with openssl a chain of certificates is cut to its first: clients that do not know the authority in between
refuse the server. -/
theorem C95_false : ¬ ∀ (lib : OpenSsl Bytes UInt8 UInt8 Bytes) (pem : Pem UInt8 UInt8), OpenSslReads lib pem →
    ∀ (keyPem certPem : Bytes) (key : UInt8) (chain : List UInt8), lib.listenerNew keyPem certPem = .ok (key, chain) →
      chain = pem.certs certPem := by
  intro h
  have := h toyOpenSsl toyPem ⟨?_, ?_⟩ [1] [1, 2] 1 [1] (by decide +kernel)
  · simp [toyPem] at this
  · intro p k hk
    simp only [toyOpenSsl] at hk
    split at hk <;> simp at hk
    subst hk; rfl
  · intro p k hk
    simp only [toyOpenSsl] at hk
    split at hk <;> simp at hk
    subst hk; rfl

/-- Witness: sessions that are what was presented to the peer. -/
example : let lib : OpenSsl (List UInt8) UInt8 UInt8 Unit := { toyOpenSsl with
      connect := fun _ s => .ok ([], s), accept := fun _ chain s => .ok (chain, s) }
    lib.listenerNew [1] [1, 2] = .ok (1, [1]) ∧ lib.listenerAccept (1, [1]) (.ok ()) = .ok ([1], ()) ∧
    lib.listenerAccept (1, [1]) (.err .parse) = .err .parse ∧
    { lib with accept := fun _ _ _ => .err .parse }.listenerAccept (1, [1]) (.ok ()) = .err .ssl := by
  intro lib
  exact ⟨by decide +kernel, rfl, rfl, rfl⟩

/-- Witness: with rustls and native-tls both certificates are presented. -/
example : RustlsReads toyRustls toyPem ∧ toyRustls.listenerNew [1] [1, 2] = .ok (1, [1, 2]) ∧ NativeTlsReads toyNativeTls toyPem ∧
    toyNativeTls.listenerNew [1] [1, 2] = .ok (1, [1, 2]) ∧ toyOpenSsl.listenerNew [1] [1, 2] = .ok (1, [1]) ∧
    toyOpenSsl.listenerNew [3] [1, 2] = .err .ssl := by
  refine ⟨⟨?_, ?_⟩, by decide +kernel, ?_, by decide +kernel, by decide +kernel, by decide +kernel⟩
  · intro p o h
    simp only [toyRustls, Res.ok.injEq] at h
    exact h.symm
  · intro p _; rfl
  · intro certPem keyPem i h
    simp only [toyNativeTls] at h
    split at h
    · split at h
      · simp only [Res.ok.injEq] at h
        subst h; exact ⟨rfl, rfl⟩
      · simp at h
    · simp at h

theorem res_bind_panic {α β : Type} {x : Res α} {f : α → Res β} :
    (x >>= f) = .panic ↔ x = .panic ∨ ∃ a, x = .ok a ∧ f a = .panic := by
  show x.bind f = .panic ↔ _
  cases x <;> simp [Res.bind]

theorem orSsl_panic {α : Type} {x : Res α} : x.orSsl = .panic ↔ x = .panic := by cases x <;> simp [Res.orSsl]

/-- With openssl and native-tls, making a listener does not panic unless the library does. -/
theorem C96_partial (lib : OpenSsl ε κ χ σ) (lib' : NativeTls ε ι σ) (keyPem certPem : Bytes)
    (ha : lib.acceptorBuilder ≠ .panic ∧ lib.keyFromPem keyPem ≠ .panic ∧ lib.certFromPem certPem ≠ .panic ∧
      (∀ k, lib.setKey k ≠ .panic) ∧ (∀ x, lib.setCert x ≠ .panic) ∧ ∀ k x, lib.checkKey k x ≠ .panic)
    (hb : lib'.identityFromPkcs8 certPem keyPem ≠ .panic ∧ ∀ i, lib'.acceptorNew i ≠ .panic) :
    lib.listenerNew keyPem certPem ≠ .panic ∧ lib'.listenerNew keyPem certPem ≠ .panic := by
  obtain ⟨h1, h2, h3, h4, h5, h6⟩ := ha
  obtain ⟨h7, h8⟩ := hb
  constructor
  · unfold OpenSsl.listenerNew
    simp only [ne_eq, res_bind_panic, orSsl_panic, h1, h2, h3, h4, h5, h6, false_or]
    rintro ⟨_, _, _, _, _, _, _, _, _, _, _, _, h⟩
    cases h
  · unfold NativeTls.listenerNew
    simp only [ne_eq, res_bind_panic, orSsl_panic, h7, h8, false_or]
    rintro ⟨_, _, _, _, h⟩
    cases h

/-- With rustls it panics exactly if the text given for the key is readable and has no key in it. -/
theorem C96_rustls_iff (lib : Rustls ε ν κ χ) (keyPem certPem : Bytes) (h1 : lib.privateKey keyPem ≠ .panic)
    (h2 : ∀ x ∈ lib.certs certPem, x ≠ .panic) (h3 : ∀ cs k, lib.singleCert cs k ≠ .panic) :
    lib.listenerNew keyPem certPem = .panic ↔ lib.privateKey keyPem = .ok none := by
  have hcol : ∀ l : List (Res χ), (∀ x ∈ l, x ≠ .panic) → Rustls.collectCerts l ≠ .panic := by
    intro l
    induction l with
    | nil => intro _; simp [Rustls.collectCerts]
    | cons x l ih =>
      intro hl h
      simp only [Rustls.collectCerts, res_bind_panic, orSsl_panic] at h
      rcases h with h | ⟨c, _, h | ⟨_, _, h⟩⟩
      · exact hl x (by simp) h
      · exact ih (fun y hy => hl y (by simp [hy])) h
      · cases h
  have hc := hcol _ h2
  unfold Rustls.listenerNew
  simp only [res_bind_panic, orSsl_panic, orSsl_ok, hc, h1, h3, false_or]
  constructor
  · rintro ⟨o, h, h' | ⟨_, _, _, _, _, _, h'⟩⟩
    · cases o with
      | none => exact h
      | some k => simp [Rustls.unwrap] at h'
    · cases h'
  · intro h
    exact ⟨none, h, .inl rfl⟩

/-- … for example the certificate given in the place of the key. -/
theorem C96_false : ¬ ∀ (lib : Rustls (Bytes × Bool) Bytes UInt8 UInt8) (keyPem certPem : Bytes), lib.privateKey keyPem ≠ .panic →
    (∀ x ∈ lib.certs certPem, x ≠ .panic) → (∀ cs k, lib.singleCert cs k ≠ .panic) → lib.listenerNew keyPem certPem ≠ .panic := by
  intro h
  refine h toyRustls [] [1] (by decide) (by decide) ?_ (by decide +kernel)
  intro cs k
  simp only [toyRustls]
  split <;> simp

example : toyOpenSsl.listenerNew [] [1] = .err .ssl ∧ toyNativeTls.listenerNew [] [1] = .err .ssl ∧
    toyRustls.listenerNew [] [1] = .panic ∧ toyRustls.listenerNew [2] [1] = .err .ssl := by decide +kernel

end HttpIo
