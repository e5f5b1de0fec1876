import Verif.Lemmas.Stream
import Verif.Lemmas.Utf8Spec

/-! C08: reading a line. -/

namespace HttpIo
open Spec

section
variable {σ : Type} [LawfulReader σ]

/-- A line that arrives complete: `l` is the bytes before the first CR LF and `t'` is what is pending right after
it. Both ways of reading a line return `l` if it is text, report the end of the block if it is empty, and a UTF-8
error otherwise; in every case exactly `l` and the CR LF have been consumed. The transport may interleave calls
that are repeated by the standard library, and split the bytes into reads in any way. -/
theorem C08_line (c : Cfg) (s : σ) (l : Bytes) (t' : List Ev) (hno : ¬ HasCrLf l)
    (h : Delivers c (trace s) (l ++ [13, 10]) t') :
    trace (crlfNext c s).2 = t' ∧ trace (expectNext c s).2 = t' ∧
    (l = [] → (crlfNext c s).1 = none ∧ (expectNext c s).1 = .error .unexpectedEof) ∧
    (l ≠ [] → IsText l → (crlfNext c s).1 = some (.ok l) ∧ (expectNext c s).1 = .ok l) ∧
    (¬ IsText l → (crlfNext c s).1 = some (.error .utf8) ∧ (expectNext c s).1 = .error .utf8) := by
  have hn := innerNext_eq (innerNextT_line hno h)
  unfold crlfNext expectNext
  rcases hi : innerNext c s with ⟨r, s'⟩
  rw [hi] at hn
  obtain ⟨h1, h2⟩ := hn
  dsimp only at h1 h2
  subst h1
  unfold lineOutcome
  by_cases hl : l = []
  · subst hl
    have : IsText [] := ⟨[], by simp, rfl⟩
    simp [h2, this]
  · rw [if_neg (by simpa using hl)]
    by_cases hv : validUtf8 l = true
    · rw [if_pos hv]
      simp [h2, hl, (validUtf8_iff l).1 hv]
    · rw [if_neg hv]
      have hv' : ¬ IsText l := fun h => hv ((validUtf8_iff l).2 h)
      simp [h2, hl, hv']

example : ¬ HasCrLf b!"a\rb" ∧ Delivers ⟨true⟩
    (trace (Wire.mk [.data b!"a\r", .fault (.io .interrupted), .data b!"b\r", .data b!"\nrest"]))
    (b!"a\rb" ++ [13, 10]) (b!"rest".map .byte) := by
  refine ⟨?_, ?_⟩
  · rintro ⟨p, q, h⟩
    have h1 := congrArg List.length h
    rcases p with _ | ⟨a, _ | ⟨b, _ | ⟨d, p⟩⟩⟩ <;> simp at h h1 <;> omega
  · exact .byte _ (.byte _ (.retry ⟨rfl, rfl⟩ (.byte _ (.byte _ (.byte _ (.nil _))))))

/-- The stream ends before a CR LF: unexpected end of file. -/
theorem C08_eof (c : Cfg) (s : σ) (l : Bytes) (m : List Ev) (hno : ¬ HasCrLf l)
    (h : Delivers c (trace s) l m) (hm : Ended c m) :
    (crlfNext c s).1 = some (.error .unexpectedEof) ∧ (expectNext c s).1 = .error .unexpectedEof ∧
    trace (crlfNext c s).2 = [] ∧ trace (expectNext c s).2 = [] := by
  have hn := innerNext_eq (c := c) (s := s) (r := .error .unexpectedEof) (t := []) (by
    rw [innerNextT_prefix h [] (by simpa using hno)]; exact innerNextT_ended hm _)
  unfold crlfNext expectNext
  rcases hi : innerNext c s with ⟨r, s'⟩
  rw [hi] at hn
  obtain ⟨h1, h2⟩ := hn
  dsimp only at h1 h2
  subst h1
  simp [h2]

example : Delivers ⟨true⟩ (trace (Wire.mk [.data b!"ab", .fault (.io .interrupted)])) b!"ab"
    [.fault (.io .interrupted)] ∧ Ended ⟨true⟩ [.fault (.io .interrupted)] := by
  refine ⟨.byte _ (.byte _ (.nil _)), ?_⟩
  intro ev hev
  simp at hev
  exact ⟨_, hev, rfl, rfl⟩

/-- The transport fails before a CR LF: that failure is reported, and only what preceded it has been consumed. -/
theorem C08_fault (c : Cfg) (s : σ) (l : Bytes) (m : List Ev) (e : Err) (t' : List Ev) (hno : ¬ HasCrLf l)
    (h : Delivers c (trace s) l m) (hm : Fails c m e t') :
    (crlfNext c s).1 = some (.error e) ∧ (expectNext c s).1 = .error e ∧
    trace (crlfNext c s).2 = t' ∧ trace (expectNext c s).2 = t' := by
  have hn := innerNext_eq (c := c) (s := s) (r := .error e) (t := t') (by
    rw [innerNextT_prefix h [] (by simpa using hno)]; exact innerNextT_fails hm _)
  unfold crlfNext expectNext
  rcases hi : innerNext c s with ⟨r, s'⟩
  rw [hi] at hn
  obtain ⟨h1, h2⟩ := hn
  dsimp only at h1 h2
  subst h1
  simp [h2]

example : Delivers ⟨false⟩ (trace (Wire.mk [.data b!"ab", .fault (.io .interrupted), .data b!"c"])) b!"ab"
    [.fault (.io .interrupted), .byte 99] ∧
    Fails ⟨false⟩ [.fault (.io .interrupted), .byte 99] (.io .interrupted) [.byte 99] :=
  ⟨.byte _ (.byte _ (.nil _)), by simp [Retried], [], rfl, by simp [Ended]⟩

/-- The three cases above are all: whatever is pending, a line arrives complete, or the stream ends before a CR LF,
or the transport fails before a CR LF. -/
theorem C08_total (c : Cfg) (t : List Ev) :
    (∃ l t', ¬ HasCrLf l ∧ Delivers c t (l ++ [13, 10]) t') ∨
    (∃ l m, ¬ HasCrLf l ∧ Delivers c t l m ∧ Ended c m) ∨
    (∃ l m e t', ¬ HasCrLf l ∧ Delivers c t l m ∧ Fails c m e t') := by
  obtain ⟨l, m, h1, h2⟩ := delivers_all c t
  by_cases hc : HasCrLf l
  · obtain ⟨a, b, rfl, ha⟩ := hasCrLf_first hc
    obtain ⟨m', h3, _⟩ := h1.split
    exact .inl ⟨a, m', ha, h3⟩
  · rcases h2 with h2 | ⟨e, t', h2⟩
    · exact .inr (.inl ⟨l, m, hc, h1, h2⟩)
    · exact .inr (.inr ⟨l, m, e, t', hc, h1, h2⟩)

end

end HttpIo
