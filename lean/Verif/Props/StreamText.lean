import Verif.Lemmas.StreamText
import Verif.Props.ErrorText
import Verif.Props.Breaks
import Verif.Props.Preface

/-! C172: what is said about a head that breaks off or is not text. -/

namespace HttpIo
open Spec

section
variable {c : Cfg} {σ : Type} [LawfulReader σ]

theorem linesStreamSaid_at {e : Err} {t' : List Ev} (hu : Unreadable c t' e) (raw : List Bytes) :
    ∀ {s : σ}, (∀ l ∈ raw, RawLine l) → Delivers c (trace s) (raw.flatMap (· ++ [13, 10])) t' →
      linesStreamSaid c s = innerSaidT c [] t' := by
  induction raw with
  | nil =>
    intro s _ hd
    simp only [List.flatMap_nil] at hd
    have h1 := crlfNext_breaks (s := s) (by rw [delivers_none hd]; exact hu)
    unfold linesStreamSaid
    split
    · rename_i h; rw [h] at h1; simp at h1
    · rw [innerSaid_trace, delivers_none hd]
    · rename_i h; rw [h] at h1; simp at h1
  | cons l raw ih =>
    intro s hraw hd
    rw [List.flatMap_cons] at hd
    obtain ⟨m, hm1, hm2⟩ := hd.split
    obtain ⟨s1, h1, h2⟩ := crlfNext_line (hraw l (by simp)) hm1
    unfold linesStreamSaid
    split
    · rename_i h; rw [h] at h1; simp at h1
    · rename_i h; rw [h] at h1; simp at h1
    · rename_i h
      rw [h] at h1
      simp only [Prod.mk.injEq] at h1
      rw [h1.2]
      exact ih (fun x hx => hraw x (by simp [hx])) (by rw [h2]; exact hm2)

theorem headStreamSaid_at {e : Err} {s : σ} {t' : List Ev} {ok : Bytes → Prop} (hu : Unreadable c t' e)
    (h : trace s = t' ∨ ∃ bs, HeadBegun ok bs ∧ Delivers c (trace s) bs t') :
    headStreamSaid c s = innerSaidT c [] t' := by
  unfold headStreamSaid
  rcases h with h | ⟨bs, ⟨line, raw, logical, h1, h2, h3, h4, h5, rfl⟩, h6⟩
  · have h1 := innerNext_breaks (s := s) (by rw [h]; exact hu)
    split
    · rw [innerSaid_trace, h]
    · rename_i h; rw [h] at h1; simp at h1
    · rename_i h; rw [h] at h1; simp at h1
  · rw [List.flatMap_cons] at h6
    obtain ⟨m, hm1, hm2⟩ := h6.split
    have hn := innerNext_eq (s := s) (innerNextT_line h1.2.1 hm1)
    have ho : lineOutcome line = .ok (some line) := by
      unfold lineOutcome
      rw [if_neg (by simpa using h1.1), if_pos ((validUtf8_iff _).2 h1.2.2)]
    rw [ho] at hn
    split
    · rename_i h; rw [h] at hn; simp at hn
    · rename_i h; rw [h] at hn; simp at hn
    · rename_i h
      rw [h] at hn
      exact linesStreamSaid_at hu raw h3 (by rw [hn.2]; exact hm2)

end

section
variable [CaseMap] [DebugText] {c : Cfg} {η σ ρ ε : Type} [LawfulReader σ] [ZeroReader σ] [LawfulReader ρ] [ZeroReader ρ]
  [LawfulWriter σ]

/-- The beginning of a head is well formed, and then the connection ends before the empty line: within a line or between
two. The answer is a fixed text. -/
theorem C172_end {P : σ → Prop} (hra : ReadsApart σ) (hrel : Reliable c P) (hkept : ∀ s n, P s → P (read s n).2)
    (h : Handler c η σ ρ ε) (ho : OnlyReads h) (errText : Err → Bytes) (s : σ) (self : η) (hs : P s)
    (hf : ∀ e, .fault e ∈ trace s → e ≠ .lengthRequired) (t t' : List Ev) (part : Bytes)
    (hb : trace s = t ∨ ∃ bs, HeadBegun (fun l => ∃ m p a b, RequestLine l m p a b) bs ∧ Delivers c (trace s) bs t)
    (hd : Delivers c t part t') (hno : ¬ HasCrLf part) (he : Ended c t')
    (htext : ∀ said, headStreamSaid c (BufReader.new c s) = some said → errText said.err = said.text) :
    (h.serveOne errText (.ok s) self).1 = .ok () ∧ (h.serveOne errText (.ok s) self).2.2 = self ∧
    ∃ d, (h.serveOne errText (.ok s) self).2.1 = some d ∧
      sent d = sent s ++ responseHead (utf8 "500 Internal Server Error") [] ++ utf8 "UnexpectedEof(\"Expected \\\\r\\\\n\")" := by
  have hu : Unreadable c t .unexpectedEof := innerNextT_breaks ⟨part, t', hd, hno, .inr ⟨he, rfl⟩⟩
  have h1 := headStreamSaid_at (s := BufReader.new c s) hu (by rwa [BufReader.trace_new])
  rw [innerSaidT_prefix hd [] (by simpa using hno), innerSaidT_ended he] at h1
  have h2 := htext _ h1
  have h3 : (HttpRequest.deserialize c (BufReader.new c s)).1 = .err .unexpectedEof := by
    refine request_unreadable c _ _ ?_
    rw [BufReader.trace_new]
    rcases hb with hb | ⟨bs, hb, hb'⟩
    · exact .inl (by rw [hb]; exact hu)
    · exact .inr ⟨bs, t, hb, hb', hu⟩
  have h4 := C51_unparsable_partial hra hrel hkept h ho errText s self hs .unexpectedEof h3 hf
  rw [show errText .unexpectedEof = _ from h2] at h4
  have h5 : LineSaid.noEnd.text = utf8 "UnexpectedEof(\"Expected \\\\r\\\\n\")" := by
    unfold LineSaid.text
    dsimp only
    rw [DebugText.escape_ascii _ (by decide)]
    decide +kernel
  rwa [h5] at h4

/-- The beginning of a head is well formed, and then a line comes that is not text. The answer tells where in the line:
how many bytes are text, and how many after them are wrong, or that there is an incomplete character at the end. -/
theorem C172_text {P : σ → Prop} (hra : ReadsApart σ) (hrel : Reliable c P) (hkept : ∀ s n, P s → P (read s n).2)
    (h : Handler c η σ ρ ε) (ho : OnlyReads h) (errText : Err → Bytes) (s : σ) (self : η) (hs : P s)
    (hf : ∀ e, .fault e ∈ trace s → e ≠ .lengthRequired) (t t' : List Ev) (l : Bytes)
    (hb : trace s = t ∨ ∃ bs, HeadBegun (fun l => ∃ m p a b, RequestLine l m p a b) bs ∧ Delivers c (trace s) bs t)
    (hd : Delivers c t (l ++ [13, 10]) t') (hno : ¬ HasCrLf l) (hl : ¬ IsText l)
    (htext : ∀ said, headStreamSaid c (BufReader.new c s) = some said → errText said.err = said.text) :
    (h.serveOne errText (.ok s) self).1 = .ok () ∧ (h.serveOne errText (.ok s) self).2.2 = self ∧
    ∃ n k words d, TextFault l n k ∧ FaultWords n k words ∧ (h.serveOne errText (.ok s) self).2.1 = some d ∧
      sent d = sent s ++ responseHead (utf8 "500 Internal Server Error") [] ++ words := by
  have hne : l ≠ [] := by rintro rfl; exact hl ⟨[], by simp, rfl⟩
  have hu : Unreadable c t .utf8 := by
    unfold Unreadable
    rw [innerNextT_line hno hd]
    unfold lineOutcome
    rw [if_neg (by simpa using hne), if_neg (mt (validUtf8_iff _).1 hl)]
  obtain ⟨n, k, hk, hfault⟩ := utf8Fail_fault hl
  have h1 := headStreamSaid_at (s := BufReader.new c s) hu (by rwa [BufReader.trace_new])
  rw [innerSaidT_line hne hno hd, hk, Option.map_some] at h1
  have h2 := htext _ h1
  have h3 : (HttpRequest.deserialize c (BufReader.new c s)).1 = .err .utf8 := by
    refine request_unreadable c _ _ ?_
    rw [BufReader.trace_new]
    rcases hb with hb | ⟨bs, hb, hb'⟩
    · exact .inl (by rw [hb]; exact hu)
    · exact .inr ⟨bs, t, hb, hb', hu⟩
  obtain ⟨h4, h5, d, h6, h7⟩ := C51_unparsable_partial hra hrel hkept h ho errText s self hs .utf8 h3 hf
  refine ⟨h4, h5, n, k, errText .utf8, d, hfault, ?_, h6, h7⟩
  rw [show errText .utf8 = _ from h2]
  cases k with
  | none =>
    have := FaultWords.cut (decimal_showDec n)
    rwa [show utf8 "Utf8Error(Utf8Error { valid_up_to: " = b!"Utf8Error(Utf8Error { valid_up_to: " by decide +kernel,
      show utf8 ", error_len: None })" = b!", error_len: None })" by decide +kernel] at this
  | some j =>
    have := FaultWords.wrong (decimal_showDec n) (decimal_showDec j)
    rwa [show utf8 "Utf8Error(Utf8Error { valid_up_to: " = b!"Utf8Error(Utf8Error { valid_up_to: " by decide +kernel,
      show utf8 ", error_len: Some(" = b!", error_len: Some(" by decide +kernel,
      show utf8 ") })" = b!") })" by decide +kernel] at this

/-- An empty line in the place of the request line. -/
theorem C172_blank {P : σ → Prop} (hra : ReadsApart σ) (hrel : Reliable c P) (hkept : ∀ s n, P s → P (read s n).2)
    (h : Handler c η σ ρ ε) (ho : OnlyReads h) (errText : Err → Bytes) (s : σ) (self : η) (hs : P s) (t : List Ev)
    (hd : Delivers c (trace s) [13, 10] t)
    (htext : ∀ said, headStreamSaid c (BufReader.new c s) = some said → errText said.err = said.text) :
    (h.serveOne errText (.ok s) self).1 = .ok () ∧ (h.serveOne errText (.ok s) self).2.2 = self ∧
    ∃ d, (h.serveOne errText (.ok s) self).2.1 = some d ∧
      sent d = sent s ++ responseHead (utf8 "500 Internal Server Error") [] ++ utf8 "UnexpectedEof(\"Expected line\")" := by
  have h1 : headStreamSaid c (BufReader.new c s) = some .noLine := by
    have hn := innerNext_eq (s := BufReader.new c s) (innerNextT_line (l := []) (t' := t) (by unfold HasCrLf; decide)
      (by rw [BufReader.trace_new]; simpa using hd))
    unfold headStreamSaid
    split
    · rename_i h; rw [h] at hn; simp [lineOutcome] at hn
    · rfl
    · rename_i h; rw [h] at hn; simp [lineOutcome] at hn
  have h4 := C170_answer_partial hra hrel hkept h ho errText s self hs t hd
  rw [show errText .unexpectedEof = _ from htext _ h1] at h4
  have h5 : LineSaid.noLine.text = utf8 "UnexpectedEof(\"Expected line\")" := by
    unfold LineSaid.text
    dsimp only
    rw [DebugText.escape_ascii _ (by decide)]
    decide +kernel
  rwa [h5] at h4

end

/-- Where bytes are not text is determined, and bytes that are not text are so somewhere. -/
theorem C172_where (l : Bytes) : (IsText l ↔ ∀ n k, ¬ TextFault l n k) ∧
    ∀ n k n' k', TextFault l n k → TextFault l n' k' → n = n' ∧ k = k' := by
  refine ⟨⟨fun h n k hk => ?_, fun h => ?_⟩, fun n k n' k' h h' => textFault_unique h h'⟩
  · exact hk.2.2.1 l.length hk.1 (by omega) (by rwa [List.take_length])
  · by_cases hl : IsText l
    · exact hl
    · obtain ⟨n, k, _, hk⟩ := utf8Fail_fault hl
      exact absurd hk (h n k)

/-! Not vacuous. -/

/-- A header line ends within a character; one has a byte that continues nothing; one has an encoded surrogate. -/
example (c : Cfg) : headStreamSaid c (Wire.mk [.data (b!"GET / HTTP/1.1\r\na: " ++ [0xE2, 0x82, 13, 10])]) =
      some (.notText 3 none) ∧
    headStreamSaid c (Wire.mk [.data (b!"GET /" ++ [0xC3, 0xA9, 0x80, 13, 10])]) = some (.notText 7 (some 1)) ∧
    headStreamSaid c (Wire.mk [.data (b!"GET / HTTP/1.1\r\nx" ++ [0xF0, 0x9F, 0x98, 65, 13, 10])]) =
      some (.notText 1 (some 3)) ∧
    headStreamSaid c (Wire.mk [.data b!"GET / HTTP/1.1\r\na: b", .data b!"c\r"]) = some .noEnd ∧
    headStreamSaid c (Wire.mk [.data b!"\r\nGET / HTTP/1.1\r\n\r\n"]) = some .noLine := by
  rcases c with ⟨_ | _⟩ <;> decide +kernel

/-- The whole exchange. The name of the file has an encoded surrogate in it. -/
example (c : Cfg) : letI : CaseMap := asciiCase
    letI : DebugText := asciiDebug
    let conn := requestConn (utf8 "GET /a" ++ [0xED, 0xA0, 0x80] ++ utf8 " HTTP/1.1\r\n\r\n")
    let texts (e : Err) := match headStreamSaid c (BufReader.new c conn) with
      | some said => if e = said.err then said.text else []
      | none => []
    ((fileHandler c (Duplex Wire Sink) b!"/srv" fun _ => []).serveOne texts (.ok conn) sampleFs).2.1.map sent =
      some (utf8 "HTTP/1.1 500 Internal Server Error\r\n\r\nUtf8Error(Utf8Error { valid_up_to: 6, error_len: Some(1) })") := by
  intro conn texts
  rcases c with ⟨_ | _⟩ <;> decide +kernel

end HttpIo
