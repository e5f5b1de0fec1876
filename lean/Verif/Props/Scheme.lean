import Verif.Props.Request

/-! C99: schemes of URLs as text. -/

namespace HttpIo
open Spec

section
variable [CaseMap]

theorem Scheme.display_fromStr (s : Bytes) : ∃ x, Scheme.fromStr s = .ok x ∧ x.display = CaseMap.lower s := by
  refine ⟨_, rfl, ?_⟩
  split
  · next h => rw [h]; rfl
  · split
    · next h => rw [h]; rfl
    · split
      · next h => rw [h]; rfl
      · rfl

theorem Scheme.fromStr_congr {s t : Bytes} (h : CaseMap.lower s = CaseMap.lower t) : Scheme.fromStr s = Scheme.fromStr t := by
  unfold Scheme.fromStr
  rw [h]

theorem Scheme.fromStr_inj {s t : Bytes} (h : Scheme.fromStr s = Scheme.fromStr t) : CaseMap.lower s = CaseMap.lower t := by
  obtain ⟨x, hx, h1⟩ := Scheme.display_fromStr s
  obtain ⟨y, hy, h2⟩ := Scheme.display_fromStr t
  rw [hx, hy, Res.ok.injEq] at h
  rw [← h1, ← h2, h]

/-- A scheme read from text shows itself as that text, up to case, and reading what it shows gives it again. -/
theorem C99_round_trip (s : Bytes) (ha : AsciiText s) :
    ∃ x, Scheme.fromStr s = .ok x ∧ SameText s x.display ∧ (∀ b ∈ x.display, ¬ (65 ≤ b.toNat ∧ b.toNat ≤ 90)) ∧
      Scheme.fromStr x.display = .ok x := by
  obtain ⟨x, hx, h1⟩ := Scheme.display_fromStr s
  have hlow : CaseMap.lower s = s.map asciiLowerByte := CaseMap.lower_ascii s ((isAscii_iff s).2 ha)
  have hb : ∀ a : UInt8, a.toNat < 128 → (asciiLowerByte a).toNat < 128 ∧
      ¬ (65 ≤ (asciiLowerByte a).toNat ∧ (asciiLowerByte a).toNat ≤ 90) := by
    rw [UInt8.forall_iff_fin]; decide +kernel
  have hd : AsciiText x.display := by
    rw [h1, hlow]
    intro b hb'
    obtain ⟨a, ha', rfl⟩ := List.mem_map.1 hb'
    exact (hb a (ha a ha')).1
  have hidem : CaseMap.lower x.display = CaseMap.lower s := by rw [h1, CaseMap.lower_idem]
  refine ⟨x, hx, (lower_eq_iff ha hd).1 hidem.symm, ?_, by rw [← hx]; exact Scheme.fromStr_congr hidem⟩
  rw [h1, hlow]
  intro b hb'
  obtain ⟨a, ha', rfl⟩ := List.mem_map.1 hb'
  exact (hb a (ha a ha')).2

/-- Every text is read as some scheme, ASCII or not. -/
theorem C99_total (s : Bytes) : ∃ x, Scheme.fromStr s = .ok x := ⟨_, rfl⟩

/-- Two texts are the same scheme iff they are equal up to case. -/
theorem C99_same (s t : Bytes) (hs : AsciiText s) (ht : AsciiText t) :
    Scheme.fromStr s = Scheme.fromStr t ↔ SameText s t := by
  rw [← lower_eq_iff hs ht]
  exact ⟨Scheme.fromStr_inj, Scheme.fromStr_congr⟩

/-- Which texts are the known schemes. -/
theorem C99_known (s : Bytes) (hs : AsciiText s) :
    (Scheme.fromStr s = .ok .Http ↔ SameText s (utf8 "http")) ∧
    (Scheme.fromStr s = .ok .Https ↔ SameText s (utf8 "https")) ∧
    (Scheme.fromStr s = .ok .File ↔ SameText s (utf8 "file")) := by
  have h1 : Scheme.fromStr (utf8 "http") = .ok .Http := by
    rw [utf8_http]; unfold Scheme.fromStr; rw [lower_const b!"http"]; rfl
  have h2 : Scheme.fromStr (utf8 "https") = .ok .Https := by
    rw [utf8_https]; unfold Scheme.fromStr; rw [lower_const b!"https"]; rfl
  have h3 : Scheme.fromStr (utf8 "file") = .ok .File := by
    rw [show utf8 "file" = b!"file" from by decide +kernel]; unfold Scheme.fromStr; rw [lower_const b!"file"]; rfl
  have ha : ∀ t : Bytes, isAscii t = true → AsciiText t := fun t => (isAscii_iff t).1
  rw [← h1, ← h2, ← h3]
  exact ⟨C99_same s _ hs (ha _ (by decide +kernel)), C99_same s _ hs (ha _ (by decide +kernel)),
    C99_same s _ hs (ha _ (by decide +kernel))⟩

/-- A value of the public type `Scheme` is read back from what it shows iff some text is read as it. -/
theorem C99_values (x : Scheme) : Scheme.fromStr x.display = .ok x ↔ ∃ s, Scheme.fromStr s = .ok x := by
  refine ⟨fun h => ⟨_, h⟩, ?_⟩
  rintro ⟨s, h⟩
  obtain ⟨y, hy, h1⟩ := Scheme.display_fromStr s
  rw [h, Res.ok.injEq] at hy
  subst hy
  rw [← h]
  exact Scheme.fromStr_congr (by rw [h1, CaseMap.lower_idem])

/-- `HttpUrl` from text, whatever `Url::parse` does: accepted iff the text is a URL, with scheme http or https (up to case) and
a host; every other text gives `UrlError`, unless it is an http or https URL without host. -/
theorem C40_from_str (parse : Bytes → Option Url) (s : Bytes) (ha : ∀ u, parse s = some u → AsciiText u.scheme) :
    (∀ v, HttpUrl.fromStr parse s = .ok v → parse s = some v.url ∧ v.url.host = some v.host) ∧
    ((∃ v, HttpUrl.fromStr parse s = .ok v) ↔ ∃ u h, parse s = some u ∧ (PlainHttp u ∨ SecureHttp u) ∧ u.host = some h) ∧
    (HttpUrl.fromStr parse s = .err .url ↔ ∀ u, parse s = some u → ¬ (PlainHttp u ∨ SecureHttp u)) ∧
    (HttpUrl.fromStr parse s = .panic ↔ ∃ u, parse s = some u ∧ (PlainHttp u ∨ SecureHttp u) ∧ u.host = none) := by
  unfold HttpUrl.fromStr
  cases hp : parse s with
  | none => simp
  | some u =>
    obtain ⟨h1, h2, h3⟩ := C40_accepted u (ha u hp)
    dsimp only
    refine ⟨?_, ?_, ?_, ?_⟩
    · intro v hv
      obtain ⟨h4, h5, _⟩ := HttpUrl.tryFrom_inv hv
      rw [h4]
      exact ⟨rfl, h5⟩
    · rw [h1]
      constructor
      · rintro ⟨h, x, hx⟩; exact ⟨u, x, rfl, h, hx⟩
      · rintro ⟨u', x, hu, h, hx⟩; cases hu; exact ⟨h, x, hx⟩
    · rw [h2]
      constructor
      · rintro h u' hu; cases hu; exact h
      · intro h; exact h u rfl
    · rw [h3]
      constructor
      · rintro h; exact ⟨u, rfl, h⟩
      · rintro ⟨u', hu, h⟩; cases hu; exact h

end

/-- Witness for C99; and a value of the type that no text is read as. -/
example : let _ := asciiCase
    AsciiText b!"HTTPS" ∧ Scheme.fromStr b!"HTTPS" = .ok .Https ∧ Scheme.fromStr b!"Ws" = .ok (.Other b!"ws") ∧
    (Scheme.Other b!"ws").display = b!"ws" ∧ Scheme.fromStr (Scheme.Other b!"http").display ≠ .ok (.Other b!"http") := by
  refine ⟨(isAscii_iff _).1 (by decide), by decide +kernel, by decide +kernel, rfl, by decide +kernel⟩

/-- Witness for `C40_from_str`: a parser that reads one URL. -/
example : let _ := asciiCase
    let parse := fun s => if s = b!"x" then some sampleUrl else if s = b!"y" then some { sampleUrl with scheme := b!"ftp" } else none
    (∀ u, parse b!"x" = some u → AsciiText u.scheme) ∧ (∃ v, HttpUrl.fromStr parse b!"x" = .ok v) ∧
    HttpUrl.fromStr parse b!"y" = .err .url ∧ HttpUrl.fromStr parse b!"z" = .err .url := by
  intro _ parse
  refine ⟨fun u h => ?_, ⟨_, rfl⟩, by decide +kernel, by decide +kernel⟩
  have : u = sampleUrl := by
    have h' : some sampleUrl = some u := h
    simpa using h'.symm
  subst this
  exact (isAscii_iff _).1 (by decide)

end HttpIo
