import Verif.Spec.Literal
import Verif.Props.Opening

/-! C97: URLs with an IP address for a host. -/

namespace HttpIo
open Spec

section
variable [CaseMap] {ω α σ τ : Type}

/-- A URL with an IPv4 address is connected to at that address, at the URL's port, whatever the lookup of names does. -/
theorem C97_ipv4_partial (net : Net ω α σ τ) (V4 V6 : Bytes → Prop) (addr : Bytes → Nat → α) (hn : NumericLookup net V4 V6 addr)
    (u : Url) (hl : LowerScheme u) (hs : PlainHttp u ∨ SecureHttp u) (t : Bytes) (ht : V4 t) (hu : u.host = some t) (w : ω) :
    ∃ id p, net.toStreamAddr u w = (.ok id, w) ∧ Names u t p ∧ id.addr = addr t p ∧ id.host = t ∧
      (id.secure = true ↔ SecureHttp u) := by
  have ha : AsciiText u.scheme := fun b hb => (hl b hb).1
  obtain ⟨s, h1, _⟩ := HttpUrl.tryFrom_ok ha hs hu
  obtain ⟨p, h2, h3, h4, h5, _, h6⟩ := C40_port u _ hl h1
  refine ⟨⟨addr t p, t, s = .Https⟩, p, ?_, ⟨hu, h3, h4⟩, rfl, rfl, ?_⟩
  · unfold Net.toStreamAddr
    rw [h1]
    dsimp only
    rw [h2]
    dsimp only
    rw [hn.literal t p w (.inl ht)]
  · rw [← h6]; simp

theorem toStreamAddr_brackets (net : Net ω α σ τ) (V4 V6 : Bytes → Prop) (addr : Bytes → Nat → α)
    (hn : NumericLookup net V4 V6 addr) (u : Url) (hl : LowerScheme u) (hs : PlainHttp u ∨ SecureHttp u) (t : Bytes)
    (hu : u.host = some ([91] ++ t ++ [93])) (w : ω) : ∃ e, net.toStreamAddr u w = (.err e, w) := by
  have ha : AsciiText u.scheme := fun b hb => (hl b hb).1
  obtain ⟨s, h1, _⟩ := HttpUrl.tryFrom_ok ha hs hu
  obtain ⟨p, h2, _⟩ := C40_port u _ hl h1
  obtain ⟨e, he⟩ := hn.brackets t p w
  refine ⟨.io .addrNotAvailable, ?_⟩
  unfold Net.toStreamAddr
  rw [h1]
  dsimp only
  rw [h2]
  dsimp only
  rw [he]

/-- A URL with an IPv6 address is not connected to: the address is looked up with its brackets, and every request is
answered with an error. -/
theorem C97_ipv6 {ρ : Type} [LawfulReader ρ] {c : Cfg} [DecidableEq α] [LawfulReader σ] [LawfulReader τ] [LawfulWriter σ] [LawfulWriter τ]
    (net : Net ω α σ τ) (V4 V6 : Bytes → Prop) (addr : Bytes → Nat → α) (hn : NumericLookup net V4 V6 addr)
    (ssl : Bool) (u : Url) (hl : LowerScheme u) (hs : PlainHttp u ∨ SecureHttp u) (t : Bytes) (hu : u.host = some ([91] ++ t ++ [93]))
    (body : ρ) (w : ω) :
    clientGet c (net.connector ssl) (some u) w = (.err (.io .addrNotAvailable), w) ∧
    clientPut c (net.connector ssl) (some u) body w = (.err (.io .addrNotAvailable), w) ∧
    ∀ cl : HttpClient (StreamId α) (StreamEither σ τ),
      cl.get c (net.connector ssl) (some u) w = (.err (.io .addrNotAvailable), cl, w) ∧
      cl.put c (net.connector ssl) (some u) w = (.err (.io .addrNotAvailable), cl, w) := by
  have ha : AsciiText u.scheme := fun b hb => (hl b hb).1
  obtain ⟨s, h1, _⟩ := HttpUrl.tryFrom_ok ha hs hu
  obtain ⟨p, h2, h3, h4, h5, _, h6⟩ := C40_port u _ hl h1
  obtain ⟨e, he⟩ := hn.brackets t p w
  have := C80_reported (c := c) net ssl u hl hs body w w _ (.lookup ⟨hu, h3, h4⟩ he)
  refine ⟨this.1, this.2.1, fun cl => this.2.2 cl fun id w1 h => ?_⟩
  obtain ⟨_, h7⟩ := toStreamAddr_brackets net V4 V6 addr hn u hl hs t hu w
  rw [h7] at h
  simp at h

end

/-- A network for the witnesses, with one IPv4 and one IPv6 address. -/
def literalNet : Net Unit (Bytes × Nat) (Duplex Wire Sink) (Duplex Wire Sink) :=
  ⟨fun h p w => (if h = b!"127.0.0.1" ∨ h = b!"::1" then .ok [(h, p)] else .error .other, w),
    fun _ w => (.ok ⟨⟨[]⟩, ⟨[], 0, []⟩⟩, w), fun _ s w => (.ok s, w)⟩

theorem literalNet_numeric : NumericLookup literalNet (· = b!"127.0.0.1") (· = b!"::1") fun t p => (t, p) where
  literal t p w h := by simp only [literalNet]; rw [if_pos h]
  brackets t p w := by
    refine ⟨.other, ?_⟩
    simp only [literalNet]
    rw [if_neg]
    rintro (h | h) <;> simp at h

/-- Not every URL whose host is an IP address is connected to at that address: `http://[::1]/`. -/
theorem C97_false [CaseMap] : ¬ ∀ (net : Net Unit (Bytes × Nat) (Duplex Wire Sink) (Duplex Wire Sink)) (V4 V6 : Bytes → Prop),
    NumericLookup net V4 V6 (fun t p => (t, p)) → ∀ (u : Url), LowerScheme u → PlainHttp u ∨ SecureHttp u → ∀ t,
    IpHost V4 V6 u t → ∃ id p, net.toStreamAddr u () = (.ok id, ()) ∧ id.addr = (t, p) := by
  intro h
  have hp : PlainHttp ⟨b!"http", some b!"[::1]", none, b!"/", none, none, [], none⟩ := by
    unfold PlainHttp; rw [utf8_http]; exact sameText_refl _
  have hl : LowerScheme ⟨b!"http", some b!"[::1]", none, b!"/", none, none, [], none⟩ := by unfold LowerScheme; decide
  obtain ⟨id, p, h1, _⟩ := h literalNet _ _ literalNet_numeric _ hl (.inl hp) b!"::1" (.inr ⟨rfl, rfl⟩)
  obtain ⟨e, h2⟩ := toStreamAddr_brackets literalNet _ _ _ literalNet_numeric _ hl (.inl hp) b!"::1" rfl ()
  rw [h2] at h1
  simp at h1

/-- Witness: `http://127.0.0.1:8080/` is connected to, `http://[::1]:8080/` is not. -/
example : let _ := asciiCase
    literalNet.toStreamAddr ⟨b!"http", some b!"127.0.0.1", some 8080, b!"/", none, none, [], none⟩ () =
      (.ok ⟨(b!"127.0.0.1", 8080), b!"127.0.0.1", false⟩, ()) ∧
    literalNet.toStreamAddr ⟨b!"http", some b!"[::1]", some 8080, b!"/", none, none, [], none⟩ () = (.err (.io .addrNotAvailable), ()) := by
  decide +kernel

end HttpIo
