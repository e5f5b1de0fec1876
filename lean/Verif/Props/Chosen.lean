import Verif.Spec.Chosen
import Verif.Props.Features
import Verif.Props.Backends

/-! C153: what the builds of the crate do about https. -/

namespace HttpIo
open Spec
section
variable {ω α β ε ν κ χ ι σ τ : Type} {c : Cfg} [CaseMap] [DecidableEq α]
variable [LawfulReader σ] [LawfulReader τ] [LawfulWriter σ] [LawfulWriter τ]

omit [CaseMap] in
theorem sslOn_iff (asked : List Feature) : sslOn asked = true ↔ On asked .ssl := by
  unfold sslOn
  rw [decide_eq_true_eq, mem_enabled]

omit [CaseMap] in
theorem sslOn_of_build {asked : List Feature} {b : Option Backend} (h : buildWith asked = .ok b) : sslOn asked = b.isSome := by
  rcases (C136_builds asked b).1 h with ⟨h1, rfl⟩ | ⟨h1, _, ⟨rfl, _⟩ | ⟨rfl, _⟩ | ⟨rfl, _⟩⟩
  · exact Bool.eq_false_iff.2 fun h => h1 ((sslOn_iff asked).1 h)
  all_goals exact (sslOn_iff asked).2 h1

/-- Full statement: whatever features are chosen, if the crate builds, then over every history of the pooled client a request to an
https URL gets a session whose peer proved to be the URL's host. Proved here for the choices that bring a back end, whichever it is.
Missing: those that bring none, which build too (`C153_clear`, `C153_https_false`). -/
theorem C153_https_partial (asked : List Feature) (b : Backend) (hb : buildWith asked = .ok (some b)) (net : Net ω α σ τ)
    (sess : τ → ε) (V : Bytes → ε → Prop) (hr : RunsOn ν κ χ ι net sess V b) (hv : Lasting sess V)
    (xs : List (Exchange c (StreamEither σ τ) β)) (hxs : ∀ x ∈ xs, x.Confined) (w : ω) (u : Url) (hl : LowerScheme u)
    (hs : SecureHttp u) (id : StreamId α) (st : StreamEither σ τ)
    (h : ((history (net.connector (sslOn asked)) xs HttpClient.new w).2.1.getStream (net.connector (sslOn asked)) u
      (history (net.connector (sslOn asked)) xs HttpClient.new w).2.2).1 = .ok (id, st)) :
    ∃ host x, u.host = some host ∧ st = .B x ∧ V host (sess x) := by
  rw [show sslOn asked = true from sslOn_of_build hb] at h
  refine C94_https (κ := κ) (χ := χ) (ι := ι) (ν := ν) net sess V ?_ hv.read hv.write hv.flush xs hxs w u hl hs id st h
  cases hr with
  | openssl lib h1 h2 => exact .inl ⟨lib, h1, h2⟩
  | nativeTls lib h1 h2 => exact .inr (.inl ⟨lib, h1, h2⟩)
  | rustls lib t Aim h1 h2 => exact .inr (.inr ⟨lib, t, Aim, h1, h2⟩)

omit [CaseMap] [DecidableEq α] [LawfulReader σ] [LawfulReader τ] [LawfulWriter σ] [LawfulWriter τ] in
/-- Which choices these are: a build has a back end exactly if the feature `ssl` is on. -/
theorem C153_backed (asked : List Feature) (b : Option Backend) (hb : buildWith asked = .ok b) :
    b.isSome = true ↔ On asked .ssl := by
  rw [← sslOn_of_build hb, sslOn_iff]

omit [DecidableEq α] [LawfulReader σ] [LawfulReader τ] [LawfulWriter σ] [LawfulWriter τ] in
/-- A build without a back end takes https URLs, and opens a bare TCP connection for them. -/
theorem C153_clear (asked : List Feature) (hb : buildWith asked = .ok none) (net : Net ω α σ τ) (u : Url) (hs : SecureHttp u)
    (w w1 : ω) (id : StreamId α) (log : List (α ⊕ Bytes)) (h : net.toStreamAddr u w = (.ok id, w1)) (st : StreamEither σ τ)
    (w2 : ω × List (α ⊕ Bytes)) (hc : (watched net).streamConnect (sslOn asked) id (w1, log) = (.ok st, w2)) :
    (∃ s w', net.connect id.addr w1 = (.ok s, w') ∧ st = .A s) ∧ w2.2 = log ++ [.inl id.addr] := by
  rw [show sslOn asked = false from sslOn_of_build hb] at hc
  exact C49_no_ssl net u hs w w1 id log h st w2 hc

end

/-- The full statement is false: `--no-default-features --features std` builds, has the client functions, and opens a bare TCP
connection for an https URL. -/
theorem C153_https_false [CaseMap] :
    ¬ ∀ (asked : List Feature) (b : Option Backend) (net : Net Unit Nat (Duplex Wire Sink) (Duplex Wire Sink × Bytes)) (u : Url)
        (id : StreamId Nat) (st : StreamEither (Duplex Wire Sink) (Duplex Wire Sink × Bytes)),
      buildWith asked = .ok b → On asked .std → LowerScheme u → SecureHttp u →
      (HttpClient.new.getStream (net.connector (sslOn asked)) u ()).1 = .ok (id, st) → ∃ x, st = .B x := by
  intro h
  have ha : AsciiText sampleUrl.scheme := by rw [← isAscii_iff]; decide
  have hs : SecureHttp sampleUrl := by unfold SecureHttp; rw [utf8_https]; exact sameText_refl _
  obtain ⟨v, h1, hv⟩ := HttpUrl.tryFrom_ok (u := sampleUrl) ha (.inr hs) rfl
  have hx : (sampleNet.connector (sslOn [.std])).toStreamAddr sampleUrl () = (.ok ⟨1, b!"h", v = .Https⟩, ()) := by
    show sampleNet.toStreamAddr sampleUrl () = _
    unfold Net.toStreamAddr
    rw [h1]; rfl
  obtain ⟨x, hx⟩ := h [.std] none sampleNet sampleUrl ⟨1, b!"h", v = .Https⟩ (.A ⟨⟨[]⟩, ⟨[], 0, []⟩⟩) (by decide) (.asked (by decide))
    (by unfold LowerScheme sampleUrl; decide) hs (by
      unfold HttpClient.getStream
      rw [hx]; rfl)
  cases hx

/-- The builds of the prepush script: the default one, the bare one, and the other two back ends. -/
example : buildWith [.default] = .ok (some .nativeTls) ∧ buildWith [] = .ok none ∧
    buildWith [.std, .sslOpenssl] = .ok (some .openssl) ∧ buildWith [.std, .sslRustls] = .ok (some .rustls) := by decide

/-- With the default features, over a native-tls that has a peer prove to be the host it is asked for, a client gets such a session
for an https URL. -/
example : let _ := asciiCase
    let lib : NativeTls Bytes Unit (Duplex Wire Sink) :=
      { build := fun _ => .ok (), connect := fun _ host s => .ok (host, ⟨s.rd, { s.wr with got := host }⟩),
        identityFromPkcs8 := fun _ _ => .ok (), acceptorNew := fun _ => .ok (), accept := fun _ s => .ok ([], s) }
    let V : Bytes → Bytes → Prop := fun host e => host <+: e
    NativeTlsChecks lib V ∧ RunsOn Unit Unit Unit Unit greetNet sent V .nativeTls ∧ Lasting (τ := Duplex Wire Sink) sent V ∧
    buildWith [.default] = .ok (some .nativeTls) ∧
    (HttpClient.new.getStream (greetNet.connector (sslOn [.default])) sampleUrl ()).1 =
      .ok (⟨1, b!"h", true⟩, .B ⟨⟨[]⟩, ⟨b!"h", 0, []⟩⟩) := by
  intro _ lib V
  have h1 : NativeTlsChecks lib V := by
    intro cfg s e s' host h _ _ _
    simp only [lib, Res.ok.injEq, Prod.mk.injEq] at h
    show host <+: e
    rw [← h.1]; exact List.prefix_refl _
  refine ⟨h1, .nativeTls lib h1 ?_, ⟨greetNet_verified.read, greetNet_verified.write, greetNet_verified.flush⟩, by decide, by decide +kernel⟩
  intro host s w x w' h
  simp only [greetNet, Prod.mk.injEq, Res.ok.injEq] at h
  refine ⟨⟨s.rd, { s.wr with got := host }⟩, (C94_native_iff lib host s _).2 ⟨rfl, ?_⟩⟩
  rw [← h.1]; rfl

end HttpIo
