import Verif.Spec.Fresh
import Verif.Props.OneShot

/-! C180: the one-shot functions do what a client without a connection does. -/

namespace HttpIo
open Spec

section
variable [CaseMap] {c : Cfg} {ω α σ ρ : Type} [DecidableEq α] [LawfulReader σ] [Writer σ] [LawfulReader ρ]

omit [LawfulReader σ] in
/-- What a client without a connection for the address does with a URL that can be requested. -/
theorem request_fresh (N : StreamConnector ω α σ) (cl : HttpClient α σ) (m : HttpMethod) (url : Url) (w : ω) (b : HttpRequestBuilder c)
    (hb : HttpRequestBuilder.new c (HttpUrl.tryFrom url) m = .ok b)
    (hnone : ∀ a w', N.toStreamAddr url w = (.ok a, w') → poolGet a cl.streams = none) :
    (∃ e w', cl.request c N m (some url) w = (.err e, cl, w') ∧
      (N.toStreamAddr url w = (.err e, w') ∨ ∃ a w1, N.toStreamAddr url w = (.ok a, w1) ∧ N.connect a w1 = (.err e, w'))) ∨
    (∃ w', cl.request c N m (some url) w = (.panic, cl, w') ∧
      (N.toStreamAddr url w = (.panic, w') ∨ ∃ a w1, N.toStreamAddr url w = (.ok a, w1) ∧ N.connect a w1 = (.panic, w'))) ∨
    ∃ a w1 s w2, N.toStreamAddr url w = (.ok a, w1) ∧ N.connect a w1 = (.ok s, w2) ∧
      cl.request c N m (some url) w = match b.send s with
        | .error (e, s') => (.err e, ⟨poolSet a s' (poolSet a s cl.streams)⟩, w2)
        | .ok o => (.ok (a, o), ⟨poolSet a s cl.streams⟩, w2) := by
  unfold HttpClient.request HttpClient.getStream
  simp only [hb]
  rcases ha : N.toStreamAddr url w with ⟨a | e | _, w1⟩
  · simp only [hnone a w1 ha]
    rcases hc : N.connect a w1 with ⟨s | e | _, w2⟩
    · refine .inr (.inr ⟨a, w1, s, w2, rfl, hc, ?_⟩)
      dsimp only
      rcases b.send s with ⟨e, s'⟩ | o <;> rfl
    · exact .inl ⟨e, w2, rfl, .inr ⟨a, w1, rfl, hc⟩⟩
    · exact .inr (.inl ⟨w2, rfl, .inr ⟨a, w1, rfl, hc⟩⟩)
  · exact .inl ⟨e, w1, rfl, .inl rfl⟩
  · exact .inr (.inl ⟨w1, rfl, .inl rfl⟩)

/-- The same of the one-shot functions. -/
theorem oneShot_fresh (N : StreamConnector ω α σ) (cl : HttpClient α σ) (m : HttpMethod) (url : Url) (body : ρ) (w : ω)
    (b : HttpRequestBuilder c) (hb : HttpRequestBuilder.new c (HttpUrl.tryFrom url) m = .ok b)
    (hnone : ∀ a w', N.toStreamAddr url w = (.ok a, w') → poolGet a cl.streams = none) :
    OneShotLike c (cl.request c N m (some url) w) body (sendRequest c N b url body w) := by
  rcases request_fresh N cl m url w b hb hnone with ⟨e, w', h1, h2⟩ | ⟨w', h1, h2⟩ | ⟨a, w1, s, w2, h1, h2, h3⟩
  · rw [h1]
    refine .failed rfl ?_
    unfold sendRequest
    rcases h2 with h2 | ⟨a, w1, h2, h3⟩
    · rw [h2]
    · rw [h2]; dsimp only; rw [h3]
  · rw [h1]
    refine .panicked rfl ?_
    unfold sendRequest
    rcases h2 with h2 | ⟨a, w1, h2, h3⟩
    · rw [h2]
    · rw [h2]; dsimp only; rw [h3]
  · rw [h3]
    unfold sendRequest
    rw [h1]; dsimp only; rw [h2]; dsimp only
    rcases hs : b.send s with ⟨e, s'⟩ | o
    · exact .failed rfl rfl
    · dsimp only
      rcases hc : copy c body o 0 with ⟨e | n, r, o'⟩
      · exact .notCopied rfl hc rfl
      · dsimp only
        rcases hf : o'.finish with ⟨r' | e | _, s2⟩
        · dsimp only
          by_cases hok : r'.status = .OK
          · rw [if_neg (by rw [hok]; simp)]; exact .answered rfl hc (by rw [hf]) hok rfl
          · rw [if_pos hok]; exact .refused rfl hc (by rw [hf]) hok rfl
        · exact .unanswered rfl hc (by rw [hf]) rfl
        · exact .broken rfl hc (by rw [hf]) rfl

/-- `client::get` comes to what is obtained from a client that has no connection for the address, by finishing the request and
refusing every status but 200; and it leaves the world the same. -/
theorem C180_get (N : StreamConnector ω α σ) (cl : HttpClient α σ) (url : Option Url) (w : ω)
    (hnone : ∀ u a w', url = some u → N.toStreamAddr u w = (.ok a, w') → poolGet a cl.streams = none) :
    OneShotLike c (cl.get c N url w) EmptyReader.mk (clientGet c N url w) := by
  unfold HttpClient.get clientGet
  cases url with
  | none => exact .failed rfl rfl
  | some url =>
    dsimp only
    unfold HttpRequestBuilder.get
    rcases hb : HttpRequestBuilder.new c (HttpUrl.tryFrom url) .Get with b | e | _
    · exact oneShot_fresh N cl .Get url EmptyReader.mk w b hb fun a w' h => hnone url a w' rfl h
    · unfold HttpClient.request; dsimp only; rw [hb]; exact .failed rfl rfl
    · unfold HttpClient.request; dsimp only; rw [hb]; exact .panicked rfl rfl

/-- `client::put` comes to what is obtained from such a client by copying the body into the request and finishing it. -/
theorem C180_put (N : StreamConnector ω α σ) (cl : HttpClient α σ) (url : Option Url) (body : ρ) (w : ω)
    (hnone : ∀ u a w', url = some u → N.toStreamAddr u w = (.ok a, w') → poolGet a cl.streams = none) :
    OneShotLike c (cl.put c N url w) body (clientPut c N url body w) := by
  unfold HttpClient.put clientPut
  cases url with
  | none => exact .failed rfl rfl
  | some url =>
    dsimp only
    unfold HttpRequestBuilder.put
    rcases hb : HttpRequestBuilder.new c (HttpUrl.tryFrom url) .Put with b | e | _
    · exact oneShot_fresh N cl .Put url body w b hb fun a w' h => hnone url a w' rfl h
    · unfold HttpClient.request; dsimp only; rw [hb]; exact .failed rfl rfl
    · unfold HttpClient.request; dsimp only; rw [hb]; exact .panicked rfl rfl

/-- For GET there is nothing to copy: the response is that of the request as the client hands it out. -/
theorem C180_nothing (o : OutgoingRequest c σ) : copy c EmptyReader.mk o 0 = (.ok 0, EmptyReader.mk, o) := copy_empty o 0

end

/-- Witness for `C180_get`: a client with a connection for another port (the address is the port), and a page that is there. -/
example (c : Cfg) : let _ := asciiCase
    let net : StreamConnector Nat (Option Nat) (Duplex Wire Sink) :=
      { toStreamAddr := fun u n => (.ok u.port, n + 1)
        connect := fun _ n => (.ok ⟨⟨[.data b!"HTTP/1.1 200 OK\r\ncontent-length: 4\r\n\r\nreal"]⟩, ⟨[], 0, []⟩⟩, n + 10) }
    let url : Url := { scheme := utf8 "http", host := some (utf8 "a"), port := none, path := utf8 "/", query := none, fragment := none }
    let cl : HttpClient (Option Nat) (Duplex Wire Sink) := ⟨[(some 8080, ⟨⟨[.data b!"old"]⟩, ⟨[], 0, []⟩⟩)]⟩
    (∀ u a w', some url = some u → net.toStreamAddr u 0 = (.ok a, w') → poolGet a cl.streams = none) ∧
    (match clientGet c net (some url) 0 with
      | (.ok body, w) => decide (framing body = .limited 4 ∧ w = 11)
      | _ => false) = true := by
  intro inst net url cl
  refine ⟨fun u a w' hu ha => ?_, by rcases c with ⟨_ | _⟩ <;> decide +kernel⟩
  simp only [Option.some.injEq] at hu
  subst hu
  simp only [net, url, Prod.mk.injEq, Res.ok.injEq] at ha
  rw [← ha.1]
  decide

end HttpIo
