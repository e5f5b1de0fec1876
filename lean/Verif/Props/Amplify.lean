import Verif.Props.NumberText
import Verif.Props.Depends

/-! C178: how long the answer to a request that does not parse can be. -/

namespace HttpIo
open Spec

theorem Spec.QuotedByte.short {b : UInt8} {q : Bytes} (h : QuotedByte b q) : q.length ≤ 6 := by
  cases h with
  | control _ _ hd _ =>
    have : (utf8 "\\u{").length = 3 ∧ (utf8 "}").length = 1 := by decide +kernel
    simp only [List.length_append, this.1, this.2, hd]
    split <;> omega
  | _ => simp

theorem Spec.Quoted.short {s q : Bytes} (h : Quoted s q) : q.length ≤ 6 * s.length := by
  induction h with
  | nil => simp
  | cons h1 _ ih =>
    have := h1.short
    simp only [List.length_append, List.length_cons]
    omega

theorem folded_line_length {raw logical : List Bytes} (h : Folded raw logical) : ∀ l ∈ logical, l.length ≤ raw.flatten.length := by
  induction h with
  | nil => simp
  | line _ _ _ ih =>
    intro l hl
    simp only [List.flatten_cons, List.flatten_append, List.length_append]
    rcases List.mem_cons.1 hl with rfl | hl
    · simp only [List.length_append]; omega
    · have := ih l hl; omega

theorem folded_ascii {raw logical : List Bytes} (h : Folded raw logical) (hr : ∀ l ∈ raw, AsciiText l) :
    ∀ l ∈ logical, AsciiText l := by
  induction h with
  | nil => simp
  | @line first conts rest logical _ _ _ ih =>
    intro l hl
    rcases List.mem_cons.1 hl with rfl | hl
    · intro b hb
      rcases List.mem_append.1 hb with hb | hb
      · exact hr first (by simp) b hb
      · obtain ⟨x, hx, hb⟩ := List.mem_flatten.1 hb
        exact hr x (by simp [hx]) b hb
    · exact ih (fun x hx => hr x (by simp [hx])) l hl

theorem blockBytes_flatten (ls : List Bytes) : ls.flatten.length ≤ (blockBytes ls).length := by
  unfold blockBytes
  rw [List.length_append]
  induction ls with
  | nil => simp
  | cons l ls ih =>
    simp only [List.flatten_cons, List.flatMap_cons, List.length_append] at ih ⊢
    omega

section
variable [CaseMap] [DebugText]

/-- What is said about a head is no longer than six times a part of the head, and a number. -/
theorem said_short {line : Bytes} {logical : List Bytes} {said : Said} (h : Complaint CaseMap.upper line logical said)
    (hl : AsciiText line) (hls : ∀ l ∈ logical, AsciiText l) (n : Nat) (hn : line.length ≤ n) (hns : ∀ l ∈ logical, l.length ≤ n) :
    said.text.length ≤ 160 + 6 * n := by
  have hinf : ∀ {w s : Bytes}, w <:+: s → AsciiText s → AsciiText w := fun hw hs b hb => hs b (hw.subset hb)
  have hcat : ∀ {a s : Bytes}, AsciiText a → AsciiText s → AsciiText (a ++ s) := by
    intro a s ha hs b hb
    rcases List.mem_append.1 hb with h | h
    · exact ha b h
    · exact hs b h
  have hesc : ∀ {s : Bytes}, AsciiText s → (DebugText.escape s).length ≤ 6 * s.length := by
    intro s hs
    rw [DebugText.escape_ascii s ((isAscii_iff s).2 hs)]
    exact (escape_quoted hs).short
  have herr : ∀ {t : Bytes}, AsciiText t → (Said.parseError t).text.length ≤ 16 + 6 * t.length := by
    intro t ht
    have := hesc ht
    show (b!"ParseError(\"" ++ DebugText.escape t ++ b!"\")").length ≤ _
    simp only [List.length_append, List.length_cons, List.length_nil]
    omega
  have heof : ∀ {t : Bytes}, AsciiText t → (Said.unexpectedEof t).text.length ≤ 17 + 6 * t.length := by
    intro t ht
    have := hesc ht
    show (b!"UnexpectedEof(\"" ++ DebugText.escape t ++ b!"\")").length ≤ _
    simp only [List.length_append, List.length_cons, List.length_nil]
    omega
  cases h with
  | missing hw =>
    simp only [List.mem_cons, List.not_mem_nil, or_false] at hw
    rcases hw with rfl | rfl | rfl | rfl | rfl | rfl
    all_goals
      refine Nat.le_trans (heof (by unfold AsciiText; decide +kernel)) ?_
      refine Nat.le_trans (?_ : _ ≤ 160) (by omega)
      decide +kernel
  | number k =>
    refine Nat.le_trans (?_ : _ ≤ 160) (by omega)
    cases k <;> (simp only [Said.text]; decide)
  | method ht =>
    rename_i tok
    have hsub : tok.length ≤ line.length ∧ AsciiText tok := by
      rcases ht.2 with rfl | ⟨b, rest, rfl, _⟩
      · exact ⟨Nat.le_refl _, hl⟩
      · exact ⟨by simp, fun b hb => hl b (by simp [hb])⟩
    have hup : (CaseMap.upper tok).length = tok.length ∧ AsciiText (CaseMap.upper tok) := by
      exact ⟨by rw [CaseMap.upper_ascii tok ((isAscii_iff tok).2 hsub.2)]; simp, (upper_capitals hsub.2).2⟩
    have := herr (hcat (show AsciiText (utf8 "Unknown method ") by unfold AsciiText; decide +kernel) hup.2)
    rw [List.length_append, show (utf8 "Unknown method ").length = 15 by decide +kernel, hup.1] at this
    omega
  | version hw h5 =>
    have := herr (hcat (hcat (show AsciiText (utf8 "Expected 'HTTP/', got '") by unfold AsciiText; decide +kernel) (hinf hw hl))
      (show AsciiText (utf8 "'") by unfold AsciiText; decide +kernel))
    have hle := hw.length_le
    rw [List.length_append, List.length_append, show (utf8 "Expected 'HTTP/', got '").length = 23 by decide +kernel,
      show (utf8 "'").length = 1 by decide +kernel] at this
    omega
  | dot hw h5 =>
    have := herr (hcat (hcat (show AsciiText (utf8 "Expected '.', got '") by unfold AsciiText; decide +kernel) (hinf hw hl))
      (show AsciiText (utf8 "'") by unfold AsciiText; decide +kernel))
    have hle := hw.length_le
    rw [List.length_append, List.length_append, show (utf8 "Expected '.', got '").length = 19 by decide +kernel,
      show (utf8 "'").length = 1 by decide +kernel] at this
    omega
  | field hm _ =>
    have := herr (hcat (hcat (show AsciiText (utf8 "Expected ':' in '") by unfold AsciiText; decide +kernel) (hls _ hm))
      (show AsciiText (utf8 "'") by unfold AsciiText; decide +kernel))
    have hle := hns _ hm
    rw [List.length_append, List.length_append, show (utf8 "Expected ':' in '").length = 17 by decide +kernel,
      show (utf8 "'").length = 1 by decide +kernel] at this
    omega
  | colon hm hw h5 =>
    have := herr (hcat (hcat (show AsciiText (utf8 "Expected ': ', got '") by unfold AsciiText; decide +kernel) (hinf hw (hls _ hm)))
      (show AsciiText (utf8 "'") by unfold AsciiText; decide +kernel))
    have hle := hw.length_le
    have hle' := hns _ hm
    rw [List.length_append, List.length_append, show (utf8 "Expected ': ', got '").length = 20 by decide +kernel,
      show (utf8 "'").length = 1 by decide +kernel] at this
    omega

variable {c : Cfg} {σ ρ η ε : Type} [LawfulReader σ] [ZeroReader σ] [LawfulWriter σ] [LawfulReader ρ] [ZeroReader ρ]

/-- A request whose head is ASCII and does not parse is answered with no more than six bytes for each of the head, and 200. -/
theorem C178_short {P : σ → Prop} (hra : ReadsApart σ) (hrel : Reliable c P)
    (hkept : ∀ s n, P s → P (read s n).2) (h : Handler c η σ ρ ε) (ho : OnlyReads h) (errText : Err → Bytes) (s : σ) (self : η)
    (hs : P s) (hf : ∀ e, .fault e ∈ trace s → e ≠ .lengthRequired) {line : Bytes} {raw logical : List Bytes} {t' : List Ev}
    (hl : RawLine line) (hraw : ∀ l ∈ raw, RawLine l) (hfold : Folded raw logical)
    (hla : AsciiText line) (hras : ∀ l ∈ raw, AsciiText l)
    (hd : Delivers c (trace s) (blockBytes (line :: raw)) t')
    (htext : ∀ said, headSaid line logical = some said → errText said.err = said.text) {e : Err}
    (he : (HttpRequest.deserialize c (BufReader.new c s)).1 = .err e) :
    ∃ d, (h.serveOne errText (.ok s) self).2.1 = some d ∧
      (sent d).length ≤ (sent s).length + 200 + 6 * (blockBytes (line :: raw)).length := by
  obtain ⟨said, d, h1, _, h3, h4⟩ := C119_complaint_partial hra hrel hkept h ho errText s self hs hf hl hraw hfold hd htext he
  refine ⟨d, h3, ?_⟩
  have hb := blockBytes_flatten (line :: raw)
  rw [List.flatten_cons, List.length_append] at hb
  have hlog : ∀ l ∈ logical, AsciiText l := folded_ascii hfold hras
  have := said_short h1 hla hlog (blockBytes (line :: raw)).length (by omega) (fun l hm => by
    have := folded_line_length hfold l hm; omega)
  rw [h4, List.length_append, List.length_append,
    show (responseHead (utf8 "500 Internal Server Error") []).length = 38 by decide +kernel]
  omega

end

/-- Witness: a request of four control characters is answered with their codes, six bytes for each. -/
example (c : Cfg) : let _ := asciiCase
    let _ := asciiDebug
    let line : Bytes := [31, 31, 31, 31]
    let s := (Duplex.mk (Wire.mk [.data (blockBytes [line])]) (Sink.mk [] 0 []) : Duplex Wire Sink)
    let said := Said.parseError (b!"Unknown method " ++ line)
    RawLine line ∧ AsciiText line ∧ headSaid line [] = some said ∧
    (match (HttpRequest.deserialize c (BufReader.new c s)).1 with | .err e => decide (e = said.err) | _ => false) = true ∧
    ((sampleHandler c).serveOne (fun _ => said.text) (.ok s) 0).2.1.map sent =
      some b!"HTTP/1.1 500 Internal Server Error\r\n\r\nParseError(\"Unknown method \\u{1f}\\u{1f}\\u{1f}\\u{1f}\")" := by
  intro _ _ line s said
  refine ⟨⟨by decide, by unfold HasCrLf; decide, isText_ascii (by decide)⟩, by unfold AsciiText; decide, by decide +kernel, ?_, ?_⟩
  · rcases c with ⟨_ | _⟩ <;> decide +kernel
  · rcases c with ⟨_ | _⟩ <;> decide +kernel

/-- The factor is reached: `n` such characters take `6 * n` bytes. -/
example (n : Nat) : let _ := asciiDebug
    (Said.parseError (b!"Unknown method " ++ List.replicate n 31)).text.length = 29 + 6 * n := by
  intro _
  have h1 : isAscii (b!"Unknown method " ++ List.replicate n 31) = true := by
    rw [isAscii_append]
    refine ⟨by decide, ?_⟩
    unfold isAscii
    rw [List.all_eq_true]
    intro b hb
    rw [List.eq_of_mem_replicate hb]; decide
  show (b!"ParseError(\"" ++ DebugText.escape _ ++ b!"\")").length = _
  rw [DebugText.escape_ascii _ h1, List.flatMap_append]
  have h2 : ((b!"Unknown method ").flatMap escapeByte).length = 15 := by decide +kernel
  have h3 : ((List.replicate n (31 : UInt8)).flatMap escapeByte).length = 6 * n := by
    induction n with
    | zero => rfl
    | succ n ih =>
      have h4 : (escapeByte 31).length = 6 := by decide +kernel
      have h5 : isAscii (b!"Unknown method " ++ List.replicate n 31) = true := by
        rw [isAscii_append] at h1 ⊢
        refine ⟨h1.1, ?_⟩
        have := h1.2
        rw [List.replicate_succ] at this
        simp only [isAscii, List.all_cons, Bool.and_eq_true] at this
        exact this.2
      rw [List.replicate_succ, List.flatMap_cons, List.length_append, ih h5, h4]
      omega
  simp only [List.length_append, h2, h3, List.length_cons, List.length_nil]
  omega

end HttpIo
