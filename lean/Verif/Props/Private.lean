import Verif.Model.Programs
import Verif.Spec.Private
import Verif.Lemmas.Case

/-! C123: the fragment, the user name and the password of a URL are told to nobody. -/

namespace HttpIo

section
variable [CaseMap] {u v : Url}

/-- Two URLs of which only the private parts differ become `HttpUrl`s of which only these differ, or fail alike. -/
theorem SamePublic.tryFrom (h : SamePublic u v) :
    (∃ e, HttpUrl.tryFrom u = .err e ∧ HttpUrl.tryFrom v = .err e) ∨
    (HttpUrl.tryFrom u = .panic ∧ HttpUrl.tryFrom v = .panic) ∨
    (∃ s host, HttpUrl.tryFrom u = .ok ⟨u, s, host⟩ ∧ HttpUrl.tryFrom v = .ok ⟨v, s, host⟩) := by
  unfold HttpUrl.tryFrom
  rw [← h.scheme, ← h.host]
  cases Scheme.fromStr u.scheme with
  | err e => exact .inl ⟨e, rfl, rfl⟩
  | panic => exact .inr (.inl ⟨rfl, rfl⟩)
  | ok s =>
    dsimp only
    split
    · exact .inl ⟨_, rfl, rfl⟩
    · cases u.host with
      | none => exact .inr (.inl ⟨rfl, rfl⟩)
      | some x => exact .inr (.inr ⟨s, x, rfl, rfl⟩)

/-- The request is the same, for every method: its target and all its headers. -/
theorem C123_request (c : Cfg) (m : HttpMethod) (h : SamePublic u v) :
    HttpRequestBuilder.new c (HttpUrl.tryFrom u) m = HttpRequestBuilder.new c (HttpUrl.tryFrom v) m := by
  rcases h.tryFrom with ⟨e, h1, h2⟩ | ⟨h1, h2⟩ | ⟨s, x, h1, h2⟩
  · rw [h1, h2]
  · rw [h1, h2]
  · rw [h1, h2]
    unfold HttpRequestBuilder.new
    dsimp only
    rw [h.path]

variable {ω α σ τ : Type}

/-- What is looked up, and in what world it leaves the operating system, is the same. -/
theorem C123_address (net : Net ω α σ τ) (w : ω) (h : SamePublic u v) :
    net.toStreamAddr u w = net.toStreamAddr v w := by
  unfold Net.toStreamAddr
  rcases h.tryFrom with ⟨e, h1, h2⟩ | ⟨h1, h2⟩ | ⟨s, x, h1, h2⟩
  · rw [h1, h2]
  · rw [h1, h2]
  · rw [h1, h2]
    have hp : HttpUrl.portOf ⟨u, s, x⟩ = HttpUrl.portOf ⟨v, s, x⟩ := by
      unfold HttpUrl.portOf Url.portOrKnownDefault
      rw [h.port, h.scheme]
    dsimp only
    rw [hp]

variable [LawfulReader σ] [LawfulReader τ] [LawfulWriter σ] [LawfulWriter τ]

/-- `client::get`, over any network: the same result, and everybody who was told anything (the resolver, the peer) was told
the same. -/
theorem C123_get (c : Cfg) (net : Net ω α σ τ) (ssl : Bool) (w : ω) (h : SamePublic u v) :
    clientGet c (net.connector ssl) (some u) w = clientGet c (net.connector ssl) (some v) w := by
  unfold clientGet HttpRequestBuilder.get sendRequest
  simp only [Net.connector, C123_request c _ h, C123_address net w h]

/-- `client::put`. -/
theorem C123_put {ρ : Type} [LawfulReader ρ] (c : Cfg) (net : Net ω α σ τ) (ssl : Bool) (body : ρ) (w : ω)
    (h : SamePublic u v) :
    clientPut c (net.connector ssl) (some u) body w = clientPut c (net.connector ssl) (some v) body w := by
  unfold clientPut HttpRequestBuilder.put sendRequest
  simp only [Net.connector, C123_request c _ h, C123_address net w h]

/-- A client with pooled connections, whatever it has been used for: the same request under way on the same connection. -/
theorem C123_client [DecidableEq α] (c : Cfg) (net : Net ω α σ τ) (ssl : Bool) (cl : HttpClient (StreamId α) (StreamEither σ τ))
    (m : HttpMethod) (w : ω) (h : SamePublic u v) :
    cl.request c (net.connector ssl) m (some u) w = cl.request c (net.connector ssl) m (some v) w := by
  unfold HttpClient.request HttpClient.getStream
  simp only [Net.connector, C123_request c _ h, C123_address net w h]

/-- Witness: `https://user:secret@h/p#f` is the request for `https://h/p`, which is made. -/
example (c : Cfg) :
    let _ := asciiCase
    let u : Url := ⟨b!"https", some b!"h", none, b!"/p", none, some b!"f", b!"user", some b!"secret"⟩
    let v : Url := ⟨b!"https", some b!"h", none, b!"/p", none, none, [], none⟩
    SamePublic u v ∧ u ≠ v ∧ ∃ b, HttpRequestBuilder.new c (HttpUrl.tryFrom u) .Get = .ok b ∧ b.request.uri = b!"/p" := by
  intro _ u v
  exact ⟨⟨rfl, rfl, rfl, rfl, rfl⟩, by decide, _, rfl, rfl⟩

end
end HttpIo
