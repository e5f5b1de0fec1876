import Verif.Props.Server
import Verif.Props.Rfc
import Verif.Lemmas.Complaint

/-! C119: what the answer to a request that does not parse repeats of the request. -/

namespace HttpIo
open Spec

/-- A `DebugText` for the examples. -/
def asciiDebug : DebugText where
  escape s := s.flatMap escapeByte
  escape_ascii _ _ := rfl

section
variable [CaseMap] [DebugText] {c : Cfg} {η σ ρ ε : Type} [LawfulReader σ] [ZeroReader σ] [LawfulReader ρ] [ZeroReader ρ]
  [LawfulWriter σ]

omit [DebugText] [ZeroReader σ] [LawfulWriter σ] in
/-- The head is what fails. -/
theorem request_complained {s : σ} {line : Bytes} {raw logical : List Bytes} {t' : List Ev} (hl : RawLine line)
    (hraw : ∀ l ∈ raw, RawLine l) (hf : Folded raw logical) (h : Delivers c (trace s) (blockBytes (line :: raw)) t') :
    SaidFor (HttpRequest.deserialize c (BufReader.new c s)).1 (headSaid line logical) := by
  have h1 := (parseHead_block (start := parseRequestLine) (s := BufReader.new c s) hl hraw hf
    (by rw [BufReader.trace_new]; exact h)).1
  have h2 := headSaid_for line logical
  rw [← h1] at h2
  unfold HttpRequest.deserialize
  rcases hp : parseHead c parseRequestLine (BufReader.new c s) with ⟨⟨⟨_, _, _⟩, _, _, _⟩ | _ | _, _⟩ <;> rw [hp] at h2 <;> exact h2

/-- A head that does not parse is answered with the text of its error, and nothing else. -/
theorem C119_answer {P : σ → Prop} (hra : ReadsApart σ) (hrel : Reliable c P) (hkept : ∀ s n, P s → P (read s n).2)
    (h : Handler c η σ ρ ε) (ho : OnlyReads h) (errText : Err → Bytes) (s : σ) (self : η) (hs : P s)
    (hf : ∀ e, .fault e ∈ trace s → e ≠ .lengthRequired) {line : Bytes} {raw logical : List Bytes} {t' : List Ev}
    (hl : RawLine line) (hraw : ∀ l ∈ raw, RawLine l) (hfold : Folded raw logical)
    (hd : Delivers c (trace s) (blockBytes (line :: raw)) t') {said : Said} (hsaid : headSaid line logical = some said)
    (htext : errText said.err = said.text) :
    (h.serveOne errText (.ok s) self).1 = .ok () ∧ (h.serveOne errText (.ok s) self).2.2 = self ∧
    ∃ d, (h.serveOne errText (.ok s) self).2.1 = some d ∧
      sent d = sent s ++ responseHead (utf8 "500 Internal Server Error") [] ++ said.text := by
  have hr := request_complained (c := c) hl hraw hfold hd
  rw [hsaid] at hr
  have he : (HttpRequest.deserialize c (BufReader.new c s)).1 = .err said.err := by
    unfold SaidFor Res.errOf at hr
    split at hr
    · rename_i e heq; rw [heq]; simp only [Option.map_some, Option.some.injEq] at hr; rw [hr]
    · simp at hr
  rw [← htext]
  exact C51_unparsable_partial hra hrel hkept h ho errText s self hs said.err he hf

/-- Partial: a head that does not parse is answered with one of the listed texts. Of the request they repeat nothing, the
first word of the request line, a header line without a colon, or at most five bytes. Missing for the full property: the
texts that repeat something (`C119_fixed_false`). -/
theorem C119_complaint_partial {P : σ → Prop} (hra : ReadsApart σ) (hrel : Reliable c P)
    (hkept : ∀ s n, P s → P (read s n).2) (h : Handler c η σ ρ ε) (ho : OnlyReads h) (errText : Err → Bytes) (s : σ) (self : η)
    (hs : P s) (hf : ∀ e, .fault e ∈ trace s → e ≠ .lengthRequired) {line : Bytes} {raw logical : List Bytes} {t' : List Ev}
    (hl : RawLine line) (hraw : ∀ l ∈ raw, RawLine l) (hfold : Folded raw logical)
    (hd : Delivers c (trace s) (blockBytes (line :: raw)) t')
    (htext : ∀ said, headSaid line logical = some said → errText said.err = said.text) {e : Err}
    (he : (HttpRequest.deserialize c (BufReader.new c s)).1 = .err e) :
    ∃ said d, Complaint CaseMap.upper line logical said ∧ said.err = e ∧ (h.serveOne errText (.ok s) self).2.1 = some d ∧
      sent d = sent s ++ responseHead (utf8 "500 Internal Server Error") [] ++ said.text := by
  have hr := request_complained (c := c) hl hraw hfold hd
  rw [he] at hr
  cases hsaid : headSaid line logical with
  | none => rw [hsaid] at hr; simp [SaidFor, Res.errOf] at hr
  | some said =>
    rw [hsaid] at hr
    simp only [SaidFor, Res.errOf, Option.map_some, Option.some.injEq] at hr
    obtain ⟨_, _, d, h1, h2⟩ := C119_answer hra hrel hkept h ho errText s self hs hf hl hraw hfold hd hsaid (htext _ hsaid)
    exact ⟨said, d, headSaid_complaint hsaid, hr, h1, h2⟩

omit [CaseMap] in
theorem Said.text_parse (t : Bytes) : (Said.parseError t).text = b!"ParseError(\"" ++ DebugText.escape t ++ b!"\")" := rfl

omit [CaseMap] in
theorem escape_append {a s : Bytes} (ha : isAscii a = true) (hq : a.flatMap escapeByte = a) (hs : AsciiText s) :
    DebugText.escape (a ++ s) = a ++ s.flatMap escapeByte := by
  rw [DebugText.escape_ascii _ (by rw [isAscii_iff] at *; intro b hb; rcases List.mem_append.1 hb with h | h
                                   · exact ha b h
                                   · exact hs b h), List.flatMap_append, hq]

omit [CaseMap] [DebugText] in
theorem upperByte_ascii : ∀ n : Fin 128, (asciiUpperByte (UInt8.ofNat n)).toNat < 128 ∧
    ¬ (97 ≤ (asciiUpperByte (UInt8.ofNat n)).toNat ∧ (asciiUpperByte (UInt8.ofNat n)).toNat ≤ 122) ∧
    asciiUpperByte (asciiUpperByte (UInt8.ofNat n)) = asciiUpperByte (UInt8.ofNat n) := by decide +kernel

omit [DebugText] in
/-- Capitals of ASCII text. -/
theorem upper_capitals {t : Bytes} (h : AsciiText t) : Capitals t (CaseMap.upper t) ∧ AsciiText (CaseMap.upper t) := by
  have hb : ∀ b ∈ t, (asciiUpperByte b).toNat < 128 ∧ ¬ (97 ≤ (asciiUpperByte b).toNat ∧ (asciiUpperByte b).toNat ≤ 122) ∧
      asciiUpperByte (asciiUpperByte b) = asciiUpperByte b := by
    intro b hb
    have := upperByte_ascii ⟨b.toNat, h b hb⟩
    rwa [UInt8.ofNat_toNat] at this
  rw [CaseMap.upper_ascii t ((isAscii_iff t).2 h)]
  have ha : AsciiText (t.map asciiUpperByte) := by
    intro b hm
    obtain ⟨x, hx, rfl⟩ := List.mem_map.1 hm
    exact (hb x hx).1
  refine ⟨⟨?_, ?_⟩, ha⟩
  · rw [sameText_iff_upper h ha, List.map_map]
    exact List.map_congr_left fun b hm => (hb b hm).2.2.symm
  · intro b hm
    obtain ⟨x, hx, rfl⟩ := List.mem_map.1 hm
    exact (hb x hx).2.1

/-- A request whose first word is not a method is answered with that word, in capitals and quoted. -/
theorem C119_method {P : σ → Prop} (hra : ReadsApart σ) (hrel : Reliable c P) (hkept : ∀ s n, P s → P (read s n).2)
    (h : Handler c η σ ρ ε) (ho : OnlyReads h) (errText : Err → Bytes) (s : σ) (self : η) (hs : P s)
    (hf : ∀ e, .fault e ∈ trace s → e ≠ .lengthRequired) {line tok : Bytes} {raw logical : List Bytes} {t' : List Ev}
    (hl : RawLine line) (hraw : ∀ l ∈ raw, RawLine l) (hfold : Folded raw logical)
    (hd : Delivers c (trace s) (blockBytes (line :: raw)) t') (ht : FirstToken line tok) (ha : AsciiText tok)
    (hm : ∀ m, ¬ SameText tok (utf8 (methodName m)))
    (htext : ∀ said, headSaid line logical = some said → errText said.err = said.text) :
    ∃ u q d, Capitals tok u ∧ Quoted u q ∧ (h.serveOne errText (.ok s) self).2.1 = some d ∧
      sent d = sent s ++ responseHead (utf8 "500 Internal Server Error") [] ++
        (utf8 "ParseError(\"Unknown method " ++ q ++ utf8 "\")") := by
  have hp : (Parser.new line).parseToken.1 = .ok tok := by
    have hv := (validUtf8_iff line).2 hl.2.2
    rcases Parser.parseToken_valid [] line hv with ⟨e, he⟩ | ⟨tok', mid, post', h1, _, h3⟩
    · unfold Parser.parseToken at he
      rw [if_neg (by simpa using hl.1), show sliceFrom ([] ++ line) ([] : Bytes).length = .ok line from sliceFrom_append hv] at he
      dsimp only at he
      split at he
      · simp at he
      · rename_i e' p' hc
        exact absurd (by rw [hc]) (Parser.consumeWhitespace_ne_err _ e')
      · simp at he
    · have := (Parser.parseToken_infix h3).2.2 rfl
      unfold Parser.new
      rw [ht.unique this]
      simpa using congrArg Prod.fst h3
  have hme : HttpMethod.fromStr tok = .err .parse := (C05_parse tok ha .Get).2 hm
  have hsaid : headSaid line logical = some (.parseError (b!"Unknown method " ++ CaseMap.upper tok)) := by
    rcases h1 : (Parser.new line).parseToken with ⟨r, p1⟩
    rw [h1] at hp
    dsimp only at hp
    subst hp
    unfold headSaid parseRequestLine requestLineSaid
    rw [h1]
    dsimp only
    rw [hme]
  obtain ⟨_, _, d, h1, h2⟩ := C119_answer hra hrel hkept h ho errText s self hs hf hl hraw hfold hd hsaid (htext _ hsaid)
  obtain ⟨hc, hu⟩ := upper_capitals ha
  refine ⟨_, _, d, hc, escape_quoted hu, h1, ?_⟩
  rw [h2]
  congr 1
  rw [Said.text_parse, escape_append (by decide +kernel) (by decide +kernel) hu,
    show utf8 "ParseError(\"Unknown method " = b!"ParseError(\"" ++ b!"Unknown method " by decide +kernel,
    show utf8 "\")" = b!"\")" by decide +kernel]
  simp

/-- A header line without a colon, after well-formed ones, is repeated whole in the answer. -/
theorem C119_field {P : σ → Prop} (hra : ReadsApart σ) (hrel : Reliable c P) (hkept : ∀ s n, P s → P (read s n).2)
    (h : Handler c η σ ρ ε) (ho : OnlyReads h) (errText : Err → Bytes) (s : σ) (self : η) (hs : P s)
    (hf : ∀ e, .fault e ∈ trace s → e ≠ .lengthRequired) {line bad : Bytes} {raw good rest : List Bytes} {t' : List Ev}
    (hl : RawLine line) (hraw : ∀ l ∈ raw, RawLine l) (hfold : Folded raw (good ++ bad :: rest))
    (hd : Delivers c (trace s) (blockBytes (line :: raw)) t') {m : HttpMethod} {target : Bytes} {v : HttpVersion}
    (hr : parseRequestLine line = .ok (m, target, v)) (hg : ∀ l ∈ good, ∃ k v, HeaderLine l k v) (hne : bad ≠ [])
    (ha : AsciiText bad) (hb : 58 ∉ bad)
    (htext : ∀ said, headSaid line (good ++ bad :: rest) = some said → errText said.err = said.text) :
    ∃ q d, Quoted bad q ∧ (h.serveOne errText (.ok s) self).2.1 = some d ∧
      sent d = sent s ++ responseHead (utf8 "500 Internal Server Error") [] ++
        (utf8 "ParseError(\"Expected ':' in '" ++ q ++ utf8 "'\")") := by
  have htx := folded_isText hfold hraw
  have hpu : (Parser.new bad).parseUntil b!":" = (.err .parse, Parser.new bad) := by
    have hv := (validUtf8_iff bad).2 (htx bad (by simp))
    unfold Parser.parseUntil Parser.new
    have h0 := sliceFrom_append (pre := []) hv
    simp only [List.nil_append, List.length_nil] at h0
    rw [if_neg (by simpa using hne)]
    dsimp only
    rw [h0]
    dsimp only
    rw [findSub_colon_none hb]
  have hgood : ∀ (good : List Bytes) (acc : List HttpHeader), (∀ l ∈ good, IsText l) → (∀ l ∈ good, ∃ k v, HeaderLine l k v) →
      linesSaid acc (good ++ bad :: rest) = some (.parseError (b!"Expected ':' in '" ++ bad ++ b!"'")) := by
    intro good
    induction good with
    | nil =>
      intro acc _ _
      rw [List.nil_append, linesSaid]
      have : HttpHeader.deserialize bad = .err .parse := by unfold HttpHeader.deserialize; rw [hpu]
      rw [this]
      dsimp only
      unfold headerSaid
      rw [hpu]
      dsimp only
      rw [if_neg (by simpa using hne)]
    | cons l ls ih =>
      intro acc h1 h2
      rw [List.cons_append, linesSaid]
      obtain ⟨r, hr⟩ := (parseLines_iff (logical := [l]) (by simpa using h1 l (by simp))).2 (by simpa using h2 l (by simp))
      unfold parseLines at hr
      cases hdl : HttpHeader.deserialize l with
      | ok hd => dsimp only; exact ih _ (fun x hx => h1 x (by simp [hx])) (fun x hx => h2 x (by simp [hx]))
      | err e => rw [hdl] at hr; simp at hr
      | panic => rw [hdl] at hr; simp at hr
  have hsaid : headSaid line (good ++ bad :: rest) = some (.parseError (b!"Expected ':' in '" ++ bad ++ b!"'")) := by
    unfold headSaid
    rw [hr]
    exact hgood good [] (fun l hl => htx l (by simp [hl])) hg
  obtain ⟨_, _, d, h1, h2⟩ := C119_answer hra hrel hkept h ho errText s self hs hf hl hraw hfold hd hsaid (htext _ hsaid)
  refine ⟨_, d, escape_quoted ha, h1, ?_⟩
  rw [h2]
  congr 1
  have hq : AsciiText (bad ++ b!"'") := by
    intro b hb
    rcases List.mem_append.1 hb with h | h
    · exact ha b h
    · simp at h; subst h; decide
  rw [Said.text_parse, List.append_assoc b!"Expected ':' in '", escape_append (by decide +kernel) (by decide +kernel) hq, List.flatMap_append,
    show utf8 "ParseError(\"Expected ':' in '" = b!"ParseError(\"" ++ b!"Expected ':' in '" by decide +kernel,
    show b!"'".flatMap escapeByte = b!"'" by decide +kernel,
    show utf8 "'\")" = b!"'" ++ b!"\")" by decide +kernel]
  simp

end

/-! ### What quoting keeps out -/

theorem Spec.QuotedByte.printable {b : UInt8} {q : Bytes} (h : QuotedByte b q) : Printable q := by
  cases h with
  | plain h1 h2 => intro x hx; simp at hx; subst hx; exact ⟨h1, h2⟩
  | mark h => rcases h with rfl | rfl <;> unfold Printable <;> decide
  | nul => unfold Printable; decide
  | tab => unfold Printable; decide
  | lf => unfold Printable; decide
  | cr => unfold Printable; decide
  | control _ hn _ _ =>
    intro x hx
    simp only [List.mem_append] at hx
    rcases hx with (hx | hx) | hx
    · revert x; decide +kernel
    · have : ∀ {ds : Bytes} {n : Nat}, Numeral 16 ds n → ∀ x ∈ ds, 32 ≤ x.toNat ∧ x.toNat < 127 := by
        intro ds n hn
        have hdig : ∀ {b : UInt8} {d : Nat}, DigitVal 16 b d → 32 ≤ b.toNat ∧ b.toNat < 127 := by
          intro b d hd
          cases hd <;> simp only [UInt8.toNat_ofNat'] <;> omega
        induction hn with
        | one hd => intro x hx; simp at hx; subst hx; exact hdig hd
        | snoc _ hd ih =>
          intro x hx
          rcases List.mem_append.1 hx with hx | hx
          · exact ih x hx
          · simp at hx; subst hx; exact hdig hd
      exact this hn x hx
    · revert x; decide +kernel

theorem Spec.Quoted.printable {s q : Bytes} (h : Quoted s q) : Printable q := by
  induction h with
  | nil => intro x hx; simp at hx
  | cons hb _ ih =>
    intro x hx
    rcases List.mem_append.1 hx with hx | hx
    · exact hb.printable x hx
    · exact ih x hx

section
variable [CaseMap] [DebugText]

/-- Whatever is said about an ASCII head is written in printable ASCII: the request cannot put a CR or LF, or any other
control character, into the answer. -/
theorem C119_printable {line : Bytes} {logical : List Bytes} {said : Said} (hl : AsciiText line)
    (hls : ∀ l ∈ logical, AsciiText l) (h : headSaid line logical = some said) : Printable said.text := by
  have hinf : ∀ {w s : Bytes}, w <:+: s → AsciiText s → AsciiText w := fun hw hs b hb => hs b (hw.subset hb)
  have hcat : ∀ {a s : Bytes}, AsciiText a → AsciiText s → AsciiText (a ++ s) := by
    intro a s ha hs b hb
    rcases List.mem_append.1 hb with h | h
    · exact ha b h
    · exact hs b h
  have hesc : ∀ {s : Bytes}, AsciiText s → Printable (DebugText.escape s) := by
    intro s hs
    rw [DebugText.escape_ascii s ((isAscii_iff s).2 hs)]
    exact (escape_quoted hs).printable
  have hwrap : ∀ {a s z : Bytes}, Printable a → Printable s → Printable z → Printable (a ++ s ++ z) := by
    intro a s z ha hs hz b hb
    simp only [List.mem_append] at hb
    rcases hb with (hb | hb) | hb
    · exact ha b hb
    · exact hs b hb
    · exact hz b hb
  have herr : ∀ {t : Bytes}, AsciiText t → Printable (Said.parseError t).text := fun ht =>
    hwrap (by unfold Printable; decide +kernel) (hesc ht) (by unfold Printable; decide +kernel)
  have heof : ∀ {t : Bytes}, AsciiText t → Printable (Said.unexpectedEof t).text := fun ht =>
    hwrap (by unfold Printable; decide +kernel) (hesc ht) (by unfold Printable; decide +kernel)
  cases headSaid_complaint h with
  | missing hw =>
    apply heof
    simp only [List.mem_cons, List.not_mem_nil, or_false] at hw
    rcases hw with rfl | rfl | rfl | rfl | rfl | rfl <;> unfold AsciiText <;> decide +kernel
  | number k =>
    cases k with
    | Empty => show Printable b!"ParseIntError(ParseIntError { kind: Empty })"; unfold Printable; decide +kernel
    | InvalidDigit => show Printable b!"ParseIntError(ParseIntError { kind: InvalidDigit })"; unfold Printable; decide +kernel
    | PosOverflow => show Printable b!"ParseIntError(ParseIntError { kind: PosOverflow })"; unfold Printable; decide +kernel
  | method ht =>
    refine herr (hcat (by unfold AsciiText; decide +kernel) (upper_capitals ?_).2)
    rcases ht.2 with rfl | ⟨b, rest, rfl, _⟩
    · exact hl
    · exact fun b hb => hl b (by simp [hb])
  | version hw => exact herr (hcat (hcat (by unfold AsciiText; decide +kernel) (hinf hw hl)) (by unfold AsciiText; decide +kernel))
  | dot hw => exact herr (hcat (hcat (by unfold AsciiText; decide +kernel) (hinf hw hl)) (by unfold AsciiText; decide +kernel))
  | field hm => exact herr (hcat (hcat (by unfold AsciiText; decide +kernel) (hls _ hm)) (by unfold AsciiText; decide +kernel))
  | colon hm hw =>
    exact herr (hcat (hcat (by unfold AsciiText; decide +kernel) (hinf hw (hls _ hm))) (by unfold AsciiText; decide +kernel))

/-- The property fails: no list of texts, however long, contains the bodies of all answers to requests that do not parse.
A client makes the server say something new by sending a longer word. -/
theorem C119_fixed_false {c : Cfg} {η ρ ε : Type} [LawfulReader ρ] [ZeroReader ρ] (h : Handler c η (Duplex Wire Sink) ρ ε)
    (ho : OnlyReads h) (self : η) (texts : List Bytes) :
    ∃ line, RawLine line ∧ ∀ errText : Err → Bytes,
      (∀ said, headSaid line [] = some said → errText said.err = said.text) →
      ∃ body d, (h.serveOne errText (.ok ⟨⟨[.data (blockBytes [line])]⟩, ⟨[], 0, []⟩⟩) self).2.1 = some d ∧
        sent d = responseHead (utf8 "500 Internal Server Error") [] ++ body ∧ body ∉ texts := by
  have hlen : ∀ (texts : List Bytes), ∀ t ∈ texts, t.length ≤ texts.flatten.length := by
    intro texts
    induction texts with
    | nil => simp
    | cons x xs ih =>
      intro t ht
      rcases List.mem_cons.1 ht with rfl | ht
      · simp
      · have := ih t ht
        simp only [List.flatten_cons, List.length_append]; omega
  have hqlen : ∀ {s q : Bytes}, Quoted s q → s.length ≤ q.length := by
    intro s q hq
    induction hq with
    | nil => simp
    | cons hb _ ih =>
      have : ∀ {b : UInt8} {q : Bytes}, QuotedByte b q → 1 ≤ q.length := by
        intro b q hb
        cases hb with
        | control _ _ h _ => simp only [List.length_append]; split at h <;> omega
        | _ => simp
      have := this hb
      simp only [List.length_cons, List.length_append]; omega
  let line : Bytes := List.replicate (texts.flatten.length + 8) 88
  have hx : ∀ b ∈ line, b = 88 := fun b hb => (List.mem_replicate.1 hb).2
  have ha : AsciiText line := fun b hb => by rw [hx b hb]; decide
  have hl : RawLine line := by
    refine ⟨by simp [line], ?_, isText_ascii ((isAscii_iff _).2 ha)⟩
    rintro ⟨p, q, hpq⟩
    have := hx 13 (by rw [← hpq]; simp)
    exact absurd this (by decide)
  refine ⟨line, hl, fun errText htext => ?_⟩
  have htr : trace (⟨⟨[.data (blockBytes [line])]⟩, ⟨[], 0, []⟩⟩ : Duplex Wire Sink) = (blockBytes [line]).map .byte := by
    simp [Duplex.trace_eq, Wire.trace_eq, WireEv.events]
  obtain ⟨u, q, d, h1, h2, h3, h4⟩ := C119_method (c := c) duplex_readsApart
    (duplex_reliable (sink_reliable c)) (fun _ _ h => h) h ho errText ⟨⟨[.data (blockBytes [line])]⟩, ⟨[], 0, []⟩⟩ self (by simp)
    (by rw [htr]; simp) hl (raw := []) (logical := []) (by simp) .nil (t' := []) (tok := line)
    (by rw [htr]; exact delivers_map' c _) ⟨fun b hb => by rw [hx b hb]; decide, .inl rfl⟩ ha
    (fun m hm => by
      have h1 := hm.length
      have h2 : (utf8 (methodName m)).length ≤ 7 := by cases m <;> decide +kernel
      simp [line] at h1; omega) htext
  refine ⟨utf8 "ParseError(\"Unknown method " ++ q ++ utf8 "\")", d, h3, ?_, fun hmem => ?_⟩
  · rw [h4]; rfl
  · have h5 := hlen texts _ hmem
    have h6 := hqlen h2
    have h7 := h1.1.length
    simp only [List.length_append] at h5
    simp only [line, List.length_replicate] at h7
    omega

end

/-- Witness: a script in a header line comes back in the answer. -/
example : let _ := asciiCase
    let _ := asciiDebug
    let line := b!"GET / HTTP/1.1"
    let bad := b!"<script>alert(\"1\")</script>"
    let s := (Duplex.mk (Wire.mk [.data (blockBytes [line, b!"host: h", bad])]) (Sink.mk [] 0 []) : Duplex Wire Sink)
    let said := Said.parseError (b!"Expected ':' in '" ++ bad ++ b!"'")
    RawLine line ∧ (∀ l ∈ [b!"host: h", bad], RawLine l) ∧ Folded [b!"host: h", bad] [b!"host: h", bad] ∧
    headSaid line [b!"host: h", bad] = some said ∧
    ((sampleHandler ⟨false⟩).serveOne (fun _ => said.text) (.ok s) 0).2.1.map sent =
      some b!"HTTP/1.1 500 Internal Server Error\r\n\r\nParseError(\"Expected ':' in '<script>alert(\\\"1\\\")</script>'\")" := by
  intro _ _ line bad s said
  refine ⟨⟨by decide, by unfold HasCrLf; decide, isText_ascii (by decide)⟩, ?_, folded_self ?_, by decide +kernel, by decide +kernel⟩
  · intro l hl
    simp only [List.mem_cons, List.not_mem_nil, or_false] at hl
    rcases hl with rfl | rfl
    · exact ⟨by decide, by unfold HasCrLf; decide, isText_ascii (by decide)⟩
    · exact ⟨by decide, by unfold HasCrLf; decide, isText_ascii (by decide)⟩
  · intro l hl
    simp only [List.mem_cons, List.not_mem_nil, or_false] at hl
    rcases hl with rfl | rfl <;> rw [← startsBlank_iff] <;> decide

/-- Witness: each kind of text occurs; a tab and a lone CR are quoted. -/
example : let _ := asciiCase
    let _ := asciiDebug
    let text := fun line logical => (headSaid line logical).map Said.text
    text b!"brew /pot HTTP/1.1" [] = some b!"ParseError(\"Unknown method BREW\")" ∧
    text b!"a\rb /" [] = some b!"ParseError(\"Unknown method A\\rB\")" ∧
    text b!"GET /" [] = some b!"UnexpectedEof(\"Expected token\")" ∧
    text b!"GET / SPDY/1.1" [] = some b!"ParseError(\"Expected 'HTTP/', got 'SPDY/'\")" ∧
    text b!"GET / HTTP/x" [] = some b!"ParseIntError(ParseIntError { kind: InvalidDigit })" ∧
    text b!"GET / HTTP/1" [] = some b!"UnexpectedEof(\"Expected .\")" ∧
    text b!"GET / HTTP/11" [] = some b!"ParseError(\"Expected '.', got '1'\")" ∧
    text b!"GET / HTTP/1." [] = some b!"UnexpectedEof(\"Expected digit\")" ∧
    text b!"GET / HTTP/1.1" [b!"a: b", b!"no\tcolon"] = some b!"ParseError(\"Expected ':' in 'no\\tcolon'\")" ∧
    text b!"GET / HTTP/1.1" [b!"a:b"] = some b!"ParseError(\"Expected ': ', got ':b'\")" ∧
    text b!"GET / HTTP/1.1" [b!"content-length: "] = some b!"ParseIntError(ParseIntError { kind: Empty })" ∧
    text b!"GET / HTTP/1.1" [b!"content-length: 99999999999999999999"] =
      some b!"ParseIntError(ParseIntError { kind: PosOverflow })" ∧
    text b!"GET / HTTP/1.1" [b!"a: b"] = none := by
  intro _ _ text
  refine ⟨?_, ?_, ?_, ?_, ?_, ?_, ?_, ?_, ?_, ?_, ?_, ?_, ?_⟩ <;> decide +kernel

end HttpIo
