import Verif.Props.Request

/-! C141: an `HttpUrl` is its URL. -/

namespace HttpIo
open Spec

section
variable [CaseMap]

/-- However they were made, two `HttpUrl`s compare equal exactly if they were made of the same URL; what was computed along with
it (scheme and host) never tells them apart. -/
theorem C141_equal (u u' : Url) (v v' : HttpUrl) (h : HttpUrl.tryFrom u = .ok v) (h' : HttpUrl.tryFrom u' = .ok v') :
    v.beq v' = true ↔ u = u' := by
  have h1 := (HttpUrl.tryFrom_inv h).1
  have h1' := (HttpUrl.tryFrom_inv h').1
  unfold HttpUrl.beq
  simp only [Bool.and_eq_true, decide_eq_true_eq]
  constructor
  · rintro ⟨⟨e, _⟩, _⟩
    rw [← h1, ← h1', e]
  · rintro rfl
    rw [h] at h'
    simp only [Res.ok.injEq] at h'
    rw [h']
    exact ⟨⟨rfl, rfl⟩, rfl⟩

/-- What parses is what the URL parser accepts and has one of the two schemes; what comes out holds just that URL. -/
theorem C141_parse (parse : Bytes → Option Url) (text : Bytes) (v : HttpUrl)
    (hlow : ∀ u, parse text = some u → LowerScheme u) :
    HttpUrl.fromStr parse text = .ok v ↔
      ∃ u host, parse text = some u ∧ u.host = some host ∧
        (PlainHttp u ∧ v = ⟨u, .Http, host⟩ ∨ SecureHttp u ∧ v = ⟨u, .Https, host⟩) := by
  unfold HttpUrl.fromStr
  cases hp : parse text with
  | none => simp
  | some u =>
    have ha : AsciiText u.scheme := fun b hb => (hlow u hp b hb).1
    dsimp only
    constructor
    · intro h
      obtain ⟨p, _, _, _, h1, h2, h3⟩ := C40_port u v (hlow u hp) h
      have hu := (HttpUrl.tryFrom_inv h).1
      refine ⟨u, v.host, rfl, h1, ?_⟩
      rcases (HttpUrl.tryFrom_inv h).2.2 with ⟨k, _⟩ | ⟨k, _⟩
      · exact .inl ⟨h2.1 k, by rw [← hu, ← k]⟩
      · exact .inr ⟨h3.1 k, by rw [← hu, ← k]⟩
    · rintro ⟨u', host, he, hh, hcase⟩
      simp only [Option.some.injEq] at he
      subst he
      obtain ⟨s, h1, h2⟩ := HttpUrl.tryFrom_ok ha (hcase.imp And.left And.left) hh
      obtain ⟨_, _, _, _, _, h3, h4⟩ := C40_port u _ (hlow u hp) h1
      rw [h1, Res.ok.injEq]
      dsimp only at h3 h4
      rcases hcase with ⟨k, rfl⟩ | ⟨k, rfl⟩
      · rw [h3.2 k]
      · rw [h4.2 k]

/-- What an `HttpUrl` displays parses to it again, if what a `Url` displays parses to it again; and it displays what its URL does. -/
theorem C141_round_trip (parse : Bytes → Option Url) (render : Url → Bytes) (u : Url) (v : HttpUrl)
    (hlaw : parse (render u) = some u) (h : HttpUrl.tryFrom u = .ok v) :
    v.display render = render u ∧ HttpUrl.fromStr parse (v.display render) = .ok v := by
  have h1 := (HttpUrl.tryFrom_inv h).1
  unfold HttpUrl.display HttpUrl.fromStr
  rw [h1, hlaw]
  exact ⟨rfl, h⟩

end

/-- Witnesses: a URL that converts; one that differs in its fragment only, and is another; and a parser and a printer that obey
the law. -/
example : let _ := asciiCase
    (∃ v v', HttpUrl.tryFrom sampleUrl = .ok v ∧ HttpUrl.tryFrom { sampleUrl with fragment := some b!"x" } = .ok v' ∧
      v.beq v = true ∧ v.beq v' = false) ∧
    (∃ (parse : Bytes → Option Url) (render : Url → Bytes), parse (render sampleUrl) = some sampleUrl ∧
      (∀ u, parse b!"s" = some u → LowerScheme u) ∧ parse b!"t" = none) := by
  intro _
  refine ⟨⟨_, _, rfl, rfl, by decide +kernel, by decide +kernel⟩, fun t => if t = b!"s" then some sampleUrl else none, fun _ => b!"s",
    by decide +kernel, ?_, by decide +kernel⟩
  · intro u hu
    have : u = sampleUrl := by simpa using hu.symm
    subst this
    unfold LowerScheme sampleUrl; decide

end HttpIo
