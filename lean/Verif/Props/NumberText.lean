import Verif.Props.ErrorText
import Verif.Props.Accept

/-! C119: the words of an answer, and which are used for a number that cannot be read. -/

namespace HttpIo
open Spec

theorem digits_iff_from {ds : Bytes} {n : Nat} : Digits ds n ↔ NumeralFrom 10 0 ds n := by
  unfold Digits
  rw [numeral_iff_from]
  constructor
  · rintro (⟨rfl, rfl⟩ | ⟨_, h⟩)
    · exact .nil _
    · exact h
  · intro h
    by_cases hd : ds = []
    · subst hd; cases h; exact .inl ⟨rfl, rfl⟩
    · exact .inr ⟨hd, h⟩

theorem numeralFrom_snoc {acc n m : Nat} {ds : Bytes} {b : UInt8} (h : NumeralFrom 10 acc ds n) :
    NumeralFrom 10 acc (ds ++ [b]) m ↔ ∃ d, DigitVal 10 b d ∧ m = n * 10 + d := by
  constructor
  · intro hm
    induction h with
    | nil =>
      cases hm with
      | cons hd hf => cases hf; exact ⟨_, hd, rfl⟩
    | cons hd _ ih =>
      cases hm with
      | cons hd' hf =>
        have : some _ = some _ := (toDigit_of_digitVal hd).symm.trans (toDigit_of_digitVal hd')
        cases this
        exact ih hf
  · rintro ⟨d, hd, rfl⟩
    exact h.append (.cons hd (.nil _))

theorem digitFail_iff {max : Nat} {s : Bytes} {k : IntKind} : ∀ {acc : Nat}, acc ≤ max →
    (digitFail 10 max acc s = some k ↔ ∃ ds b rest n, s = ds ++ b :: rest ∧ NumeralFrom 10 acc ds n ∧ n ≤ max ∧
      ((∀ d, ¬ DigitVal 10 b d) ∧ k = .InvalidDigit ∨ ∃ m, NumeralFrom 10 acc (ds ++ [b]) m ∧ max < m ∧ k = .PosOverflow)) := by
  induction s with
  | nil => intro acc _; simp [digitFail]
  | cons x xs ih =>
    intro acc hacc
    unfold digitFail
    cases hx : toDigit 10 x with
    | none =>
      dsimp only
      have hno : ∀ d, ¬ DigitVal 10 x d := fun d hd => by rw [toDigit_of_digitVal hd] at hx; simp at hx
      constructor
      · intro h
        cases h
        exact ⟨[], x, xs, acc, rfl, .nil _, hacc, .inl ⟨hno, rfl⟩⟩
      · rintro ⟨ds, b, rest, n, h1, h2, h3, h4⟩
        cases ds with
        | nil =>
          simp only [List.nil_append, List.cons.injEq] at h1
          obtain ⟨rfl, rfl⟩ := h1
          rcases h4 with ⟨_, rfl⟩ | ⟨m, h4, _⟩
          · rfl
          · cases h4 with
            | cons hd _ => exact absurd hd (hno _)
        | cons y ds =>
          simp only [List.cons_append, List.cons.injEq] at h1
          obtain ⟨rfl, _⟩ := h1
          cases h2 with
          | cons hd _ => exact absurd hd (hno _)
    | some d =>
      dsimp only
      have hd := digitVal_of_toDigit (by omega) hx
      have huniq : ∀ {d'}, DigitVal 10 x d' → d' = d := fun h => by
        have := toDigit_of_digitVal h
        rw [hx] at this
        exact (Option.some.inj this).symm
      by_cases hle : acc * 10 + d ≤ max
      · rw [if_pos (by omega), if_pos hle, ih hle]
        constructor
        · rintro ⟨ds, b, rest, n, h1, h2, h3, h4⟩
          refine ⟨x :: ds, b, rest, n, by rw [h1]; rfl, .cons hd h2, h3, ?_⟩
          rcases h4 with h4 | ⟨m, h4, h5⟩
          · exact .inl h4
          · exact .inr ⟨m, .cons hd h4, h5⟩
        · rintro ⟨ds, b, rest, n, h1, h2, h3, h4⟩
          cases ds with
          | nil =>
            simp only [List.nil_append, List.cons.injEq] at h1
            obtain ⟨rfl, rfl⟩ := h1
            rcases h4 with ⟨h4, _⟩ | ⟨m, h4, h5, _⟩
            · exact absurd hd (h4 _)
            · cases h4 with
              | cons hd' hf => cases hf; rw [huniq hd'] at h5; omega
          | cons y ds =>
            simp only [List.cons_append, List.cons.injEq] at h1
            obtain ⟨rfl, rfl⟩ := h1
            cases h2 with
            | cons hd' h2 =>
              rw [huniq hd'] at h2
              refine ⟨ds, b, rest, n, rfl, h2, h3, ?_⟩
              rcases h4 with h4 | ⟨m, h4, h5⟩
              · exact .inl h4
              · cases h4 with
                | cons hd'' h4 => rw [huniq hd''] at h4; exact .inr ⟨m, h4, h5⟩
      · have : (if acc * 10 ≤ max then if acc * 10 + d ≤ max then digitFail 10 max (acc * 10 + d) xs else some .PosOverflow
            else some .PosOverflow) = some IntKind.PosOverflow := by rw [if_neg hle]; simp
        rw [this]
        constructor
        · intro h
          cases h
          exact ⟨[], x, xs, acc, rfl, .nil _, hacc, .inr ⟨acc * 10 + d, .cons hd (.nil _), by omega, rfl⟩⟩
        · rintro ⟨ds, b, rest, n, h1, h2, h3, h4⟩
          cases ds with
          | nil =>
            simp only [List.nil_append, List.cons.injEq] at h1
            obtain ⟨rfl, rfl⟩ := h1
            rcases h4 with ⟨h4, _⟩ | ⟨m, h4, h5, h6⟩
            · exact absurd hd (h4 _)
            · rw [h6]
          | cons y ds =>
            simp only [List.cons_append, List.cons.injEq] at h1
            obtain ⟨rfl, rfl⟩ := h1
            cases h2 with
            | cons hd' h2 =>
              rw [huniq hd'] at h2
              have := h2.le (by omega)
              omega

/-- The digits after the sign. -/
theorem digitFail_fault {max : Nat} {v w : Bytes} {k : IntKind} (hw : WithoutPlus v w) (hne : w ≠ []) :
    digitFail 10 max 0 w = some k ↔ NumberFault max v k := by
  rw [digitFail_iff (Nat.zero_le _)]
  have huniq : ∀ {w'}, WithoutPlus v w' → w' = w := by
    intro w' h
    rcases h with h | ⟨h, hn⟩ <;> rcases hw with h' | ⟨h', hn'⟩
    · rw [h] at h'; exact (List.cons.inj h').2
    · exact absurd h (hn' _)
    · exact absurd h' (hn _)
    · rw [← h, ← h']
  constructor
  · rintro ⟨ds, b, rest, n, rfl, h2, h3, h4⟩
    rcases h4 with ⟨h4, rfl⟩ | ⟨m, h4, h5, rfl⟩
    · exact .digit hw (digits_iff_from.2 h2) h3 h4
    · exact .large hw (digits_iff_from.2 h2) h3 (numeral_iff_from.2 ⟨by simp, h4⟩) h5
  · intro h
    cases h with
    | empty =>
      rcases hw with h | ⟨h, _⟩
      · simp at h
      · exact absurd h.symm hne
    | sign => exact absurd (huniq (.inl rfl)).symm hne
    | digit h1 h2 h3 h4 =>
      have := huniq h1
      exact ⟨_, _, _, _, this.symm, digits_iff_from.1 h2, h3, .inl ⟨h4, rfl⟩⟩
    | large h1 h2 h3 h4 h5 =>
      have := huniq h1
      exact ⟨_, _, _, _, this.symm, digits_iff_from.1 h2, h3, .inr ⟨_, h4.toFrom, h5, rfl⟩⟩

/-- Which complaint there is about a number. -/
theorem C119_number {max : Nat} {v : Bytes} {k : IntKind} : intFail 10 max v = some k ↔ NumberFault max v k := by
  have hplain : ∀ {b : UInt8} {bs : Bytes}, b ≠ 43 → WithoutPlus (b :: bs) (b :: bs) := fun hb =>
    .inr ⟨rfl, fun r h => hb (List.cons.inj h).1⟩
  unfold intFail
  split
  · constructor
    · intro h; cases h; exact .empty
    · intro h
      cases h with
      | empty => rfl
      | digit h => rcases h with h | ⟨h, _⟩ <;> simp at h
      | large h => rcases h with h | ⟨h, _⟩ <;> simp at h
  · rename_i b
    by_cases h1 : b = 43
    · subst h1
      rw [if_pos (by decide)]
      constructor
      · intro h; cases h; exact .sign
      · intro h
        cases h with
        | sign => rfl
        | digit h => rcases h with h | ⟨h, hn⟩; · simp at h
                     exact absurd rfl (hn [])
        | large h => rcases h with h | ⟨h, hn⟩; · simp at h
                     exact absurd rfl (hn [])
    · rw [← digitFail_fault (hplain h1) (by simp)]
      by_cases h2 : b = 45
      · subst h2; rw [if_pos (by decide)]
        have : digitFail 10 max 0 [45] = some .InvalidDigit := rfl
        rw [this]
      · rw [if_neg (by simp [h1, h2])]
  · rename_i b bs hne
    by_cases h1 : b = 43
    · subst h1
      rw [if_pos (by decide)]
      exact digitFail_fault (.inl rfl) (fun h => hne (by rw [h]))
    · rw [if_neg (by simp [h1])]
      exact digitFail_fault (hplain h1) (by simp)

/-- The words of an error with an ASCII payload. -/
theorem C119_words [DebugText] (said : Said) (h : ∀ t, said = .parseError t ∨ said = .unexpectedEof t → AsciiText t) :
    Words said said.text := by
  cases said with
  | parseError t =>
    have ha := h t (.inl rfl)
    show Words _ (b!"ParseError(\"" ++ DebugText.escape t ++ b!"\")")
    rw [DebugText.escape_ascii t ((isAscii_iff t).2 ha), show b!"ParseError(\"" = utf8 "ParseError(\"" by decide +kernel,
      show b!"\")" = utf8 "\")" by decide +kernel]
    exact .parse (escape_quoted ha)
  | unexpectedEof t =>
    have ha := h t (.inr rfl)
    show Words _ (b!"UnexpectedEof(\"" ++ DebugText.escape t ++ b!"\")")
    rw [DebugText.escape_ascii t ((isAscii_iff t).2 ha), show b!"UnexpectedEof(\"" = utf8 "UnexpectedEof(\"" by decide +kernel,
      show b!"\")" = utf8 "\")" by decide +kernel]
    exact .eof (escape_quoted ha)
  | parseInt k =>
    cases k with
    | Empty =>
      rw [show (Said.parseInt .Empty).text = utf8 "ParseIntError(ParseIntError { kind: Empty })" by
        show b!"ParseIntError(ParseIntError { kind: Empty })" = _; decide +kernel]
      exact .empty
    | InvalidDigit =>
      rw [show (Said.parseInt .InvalidDigit).text = utf8 "ParseIntError(ParseIntError { kind: InvalidDigit })" by
        show b!"ParseIntError(ParseIntError { kind: InvalidDigit })" = _; decide +kernel]
      exact .digit
    | PosOverflow =>
      rw [show (Said.parseInt .PosOverflow).text = utf8 "ParseIntError(ParseIntError { kind: PosOverflow })" by
        show b!"ParseIntError(ParseIntError { kind: PosOverflow })" = _; decide +kernel]
      exact .large

section
variable [CaseMap]

theorem linesSaid_good {ls : List Bytes} {hds : List HttpHeader} : ∀ {acc : List HttpHeader}, parseLines ls = .ok hds →
    linesSaid acc ls = linesSaid (acc ++ hds) [] := by
  induction ls generalizing hds with
  | nil => intro acc h; cases h; simp
  | cons l ls ih =>
    intro acc h
    unfold parseLines at h
    cases hd : HttpHeader.deserialize l with
    | err e => rw [hd] at h; simp at h
    | panic => rw [hd] at h; simp at h
    | ok x =>
      rw [hd] at h
      dsimp only at h
      cases hp : parseLines ls with
      | err e => rw [hp] at h; simp [Res.map] at h
      | panic => rw [hp] at h; simp [Res.map] at h
      | ok xs =>
        rw [hp] at h
        simp only [Res.map, Res.ok.injEq] at h
        have h1 : linesSaid acc (l :: ls) = linesSaid (acc ++ [x]) ls := by rw [linesSaid, hd]
        rw [h1, ih hp, ← h]
        simp

variable [DebugText] {c : Cfg} {η σ ρ ε : Type} [LawfulReader σ] [ZeroReader σ] [LawfulReader ρ] [ZeroReader ρ]
  [LawfulWriter σ]

/-- A request that is well formed except that the last of its content lengths is not a number is answered with the reason. -/
theorem C119_length {P : σ → Prop} (hra : ReadsApart σ) (hrel : Reliable c P) (hkept : ∀ s n, P s → P (read s n).2)
    (h : Handler c η σ ρ ε) (ho : OnlyReads h) (errText : Err → Bytes) (s : σ) (self : η) (hs : P s)
    (hf : ∀ e, .fault e ∈ trace s → e ≠ .lengthRequired) {line : Bytes} {raw : List Bytes} {hist : List (Bytes × Bytes)}
    {t' : List Ev} (hl : RawLine line) (hraw : ∀ l ∈ raw, RawLine l)
    (hfold : Folded raw (hist.map fun kv => kv.1 ++ [58, 32] ++ kv.2)) (hnames : ∀ kv ∈ hist, (58 : UInt8) ∉ kv.1)
    (hd : Delivers c (trace s) (blockBytes (line :: raw)) t') {m : HttpMethod} {target : Bytes} {ver : HttpVersion}
    (hr : RequestLine line m target ver.major ver.minor) {v : Bytes} {k : IntKind}
    (hv : LastWith (fun k => CaseMap.lower k = utf8 "content-length") hist v) (hk : NumberFault (2 ^ 64 - 1) v k)
    (htext : ∀ said, headSaid line (hist.map fun kv => kv.1 ++ [58, 32] ++ kv.2) = some said → errText said.err = said.text) :
    ∃ body d, Words (.parseInt k) body ∧ (h.serveOne errText (.ok s) self).2.1 = some d ∧
      sent d = sent s ++ responseHead (utf8 "500 Internal Server Error") [] ++ body := by
  have htx := folded_isText hfold hraw
  have hp := parseLines_ok hnames (fun kv hkv => htx _ (List.mem_map.2 ⟨kv, hkv, rfl⟩))
  have hsaid : headSaid line (hist.map fun kv => kv.1 ++ [58, 32] ++ kv.2) = some (.parseInt k) := by
    unfold headSaid
    rw [(requestLine_ok_iff ((validUtf8_iff _).2 hl.2.2) m target ver).2 hr]
    dsimp only
    rw [linesSaid_good hp, List.nil_append, linesSaid]
    have hent : HttpHeaders.fromVec (hist.map fun kv => (⟨CaseMap.lower kv.1, kv.2⟩ : HttpHeader)) =
        ⟨insertAll (hist.map fun kv => (CaseMap.lower kv.1, kv.2)) []⟩ := by
      have := fromVec_entries (hist.map fun kv => (⟨CaseMap.lower kv.1, kv.2⟩ : HttpHeader))
      rw [List.map_map] at this
      cases hh : HttpHeaders.fromVec (hist.map fun kv => (⟨CaseMap.lower kv.1, kv.2⟩ : HttpHeader)) with
      | mk e => rw [hh] at this; simp only at this; rw [this]; rfl
    rw [hent, ((answersLike_insertAll hist b!"Content-Length").1 v).2 (by
      rw [CaseMap.lower_ascii _ (by decide), show b!"Content-Length".map asciiLowerByte = utf8 "content-length" by decide +kernel]
      exact hv)]
    dsimp only
    rw [show intFail 10 u64Max v = some k from C119_number.2 hk]
    rfl
  obtain ⟨_, _, d, h1, h2⟩ := C119_answer hra hrel hkept h ho errText s self hs hf hl hraw hfold hd hsaid (htext _ hsaid)
  exact ⟨_, d, C119_words _ (by simp), h1, h2⟩

end

/-- Witness: a request with a content length that is too large, and one of each kind of fault. -/
example : let _ := asciiCase
    let _ := asciiDebug
    let line := b!"PUT /a HTTP/1.1"
    let hist := [(b!"Content-Length", b!"7"), (b!"host", b!"h"), (b!"content-length", b!"18446744073709551616x")]
    let s := (Duplex.mk (Wire.mk [.data (blockBytes (line :: hist.map fun kv => kv.1 ++ [58, 32] ++ kv.2))]) (Sink.mk [] 0 []) : Duplex Wire Sink)
    RequestLine line .Put b!"/a" 1 1 ∧
    LastWith (fun k => CaseMap.lower k = utf8 "content-length") hist b!"18446744073709551616x" ∧
    NumberFault (2 ^ 64 - 1) b!"18446744073709551616x" .PosOverflow ∧
    ((sampleHandler ⟨false⟩).serveOne (fun _ => b!"ParseIntError(ParseIntError { kind: PosOverflow })") (.ok s) 0).2.1.map sent =
      some b!"HTTP/1.1 500 Internal Server Error\r\n\r\nParseIntError(ParseIntError { kind: PosOverflow })" := by
  intro _ _ line hist s
  refine ⟨(requestLine_ok_iff (ver := ⟨1, 1⟩) (by decide +kernel) .Put b!"/a").1 (by decide +kernel),
    ⟨[(b!"Content-Length", b!"7"), (b!"host", b!"h")], b!"content-length", [], rfl, by decide +kernel, by simp⟩,
    C119_number.1 (by decide +kernel), by decide +kernel⟩

example : NumberFault 255 b!"+" .InvalidDigit ∧ NumberFault 255 b!"-" .InvalidDigit ∧ NumberFault 255 b!"" .Empty ∧
    NumberFault 255 b!"25x6" .InvalidDigit ∧ NumberFault 255 b!"256x" .PosOverflow ∧ NumberFault 255 b!"99x" .InvalidDigit ∧
    NumberFault 255 b!"999x" .PosOverflow ∧ ∀ k, ¬ NumberFault 255 b!"+0255" k := by
  simp only [← C119_number]
  refine ⟨rfl, rfl, rfl, rfl, rfl, rfl, rfl, fun k => ?_⟩
  rw [show intFail 10 255 b!"+0255" = none from rfl]
  simp

end HttpIo
