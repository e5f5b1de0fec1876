import Verif.Model.Codes
import Verif.Lemmas.Parser
import Verif.Lemmas.Case
import Verif.Lemmas.Utf8Spec
import Verif.Spec.Codes

/-! C01-C07: status codes, methods, version, hexadecimal sizes. -/

namespace HttpIo
open Spec

/-! ### C01 -/

/-- The named statuses carry the codes of RFC 2616. -/
theorem C01_status_table : ∀ row ∈ statusTable, row.1.toCode.toNat = row.2 := by decide

/-- Converting any 32-bit code to a status and back gives the code. -/
theorem C01_code_lossless (c : UInt32) : (HttpStatus.fromCode c).toCode = c := by
  unfold HttpStatus.fromCode
  split <;> rfl

/-- Converting a status to its code and back gives the status, except for `Unknown(n)` with a named code `n`. -/
theorem C01_status_lossless (s : HttpStatus) :
    HttpStatus.fromCode s.toCode = s ↔ ¬ ∃ n : UInt32, s = .Unknown n ∧ n.toNat ∈ namedCodes := by
  constructor
  · rintro h ⟨n, rfl, hn⟩
    simp only [HttpStatus.toCode] at h
    have hn' : n = UInt32.ofNat n.toNat := by simp
    simp only [namedCodes, statusTable, List.map_cons, List.map_nil, List.mem_cons, List.not_mem_nil, or_false] at hn
    generalize n.toNat = k at *
    subst hn'
    rcases hn with h' | h' | h' | h' | h' | h' | h' | h' | h' | h' | h' | h' | h' | h' | h' | h' | h' | h' | h' | h'
      | h' | h' | h' | h' | h' | h' | h' | h' | h' | h' | h' | h' | h' | h' | h' | h' | h' | h' | h' | h' <;>
      subst h' <;> simp [HttpStatus.fromCode] at h
  · intro h
    cases s with
    | Unknown n =>
      show HttpStatus.fromCode n = _
      unfold HttpStatus.fromCode
      split <;> first
        | rfl
        | (exfalso; refine h ⟨_, rfl, ?_⟩; decide)
    | _ => rfl

example : ∃ n : UInt32, HttpStatus.Unknown 404 = .Unknown n ∧ n.toNat ∈ namedCodes := ⟨404, rfl, by decide⟩
example : ¬ ∃ n : UInt32, HttpStatus.Unknown 299 = .Unknown n ∧ n.toNat ∈ namedCodes := by
  rintro ⟨n, h, hn⟩; cases h; revert hn; decide

/-! ### C03 -/

/-- Parsing a status: exactly the texts whose first token is an unsigned decimal below 2^32. `s` ranges over
all Rust strings (valid UTF-8). -/
theorem C03_status_parse (s : Bytes) (hs : IsText s) (st : HttpStatus) :
    HttpStatus.fromStr s = .ok st ↔
      ∃ t n, FirstToken s t ∧ UnsignedText 10 t n ∧ n < 2 ^ 32 ∧ st = HttpStatus.fromCode (UInt32.ofNat n) := by
  replace hs := (validUtf8_iff s).2 hs
  have hft := takeWhile_firstToken s
  generalize htok : s.takeWhile (fun b => !Parser.isBlank b) = tok at hft
  have hparse : HttpStatus.fromStr s = .ok st ↔
      ∃ n, fromStrRadix 10 u32Max tok = some n ∧ st = HttpStatus.fromCode (UInt32.ofNat n) := by
    cases s with
    | nil =>
      simp only [List.takeWhile_nil] at htok
      subst htok
      simp [HttpStatus.fromStr, Parser.parseNumber, Parser.new, Parser.parseToken, fromStrRadix]
    | cons b rest =>
      have := Parser.parseToken_eq [] (b :: rest) (by simp) hs
      simp only [List.nil_append, List.length_nil] at this
      unfold HttpStatus.fromStr Parser.parseNumber Parser.new
      rw [this, htok]
      dsimp only
      unfold parseU32 Res.ofOption
      cases hf : fromStrRadix 10 u32Max tok with
      | none => simp
      | some n => simp [eq_comm]
  rw [hparse]
  constructor
  · rintro ⟨n, hn, rfl⟩
    have := (fromStrRadix_iff (by omega) (by omega)).1 hn
    exact ⟨tok, n, hft, this.1, by have := this.2; unfold u32Max at this; omega, rfl⟩
  · rintro ⟨t, n, ht, hu, hlt, rfl⟩
    have : t = tok := ht.unique hft
    subst this
    exact ⟨n, (fromStrRadix_iff (by omega) (by omega)).2 ⟨hu, by unfold u32Max; omega⟩, rfl⟩

/-- The parser never panics on a Rust string and every rejection is an error. -/
theorem C03_status_parse_total (s : Bytes) (hs : IsText s) : HttpStatus.fromStr s ≠ .panic := by
  replace hs := (validUtf8_iff s).2 hs
  cases s with
  | nil => simp [HttpStatus.fromStr, Parser.parseNumber, Parser.new, Parser.parseToken]
  | cons b rest =>
    have := Parser.parseToken_eq [] (b :: rest) (by simp) hs
    simp only [List.nil_append, List.length_nil] at this
    unfold HttpStatus.fromStr Parser.parseNumber Parser.new
    rw [this]
    dsimp only
    unfold parseU32 Res.ofOption
    split <;> simp_all
    split at * <;> simp_all

example : ∃ t n, FirstToken b!"+00404 Not Found" t ∧ UnsignedText 10 t n ∧ n < 2 ^ 32 ∧ n = 404 := by
  refine ⟨b!"+00404", 404, ⟨by decide, .inr ⟨32, b!"Not Found", rfl, .inl rfl⟩⟩, .inr ⟨b!"00404", rfl, ?_⟩, by decide, rfl⟩
  have h0 : DigitVal 10 48 0 := .dec 0 (by omega) (by omega)
  have h4 : DigitVal 10 52 4 := .dec 4 (by omega) (by omega)
  exact (((Numeral.one h0).snoc h0 |>.snoc h4).snoc h0).snoc h4

/-! ### C02 -/

/-- A displayed status starts with its decimal code and parses back to the status of the same code. -/
theorem C02_display_parse (s : HttpStatus) :
    HttpStatus.fromStr s.display = .ok (HttpStatus.fromCode s.toCode) := by
  have key : ∀ (d t : Bytes) (n : Nat), validUtf8 d = true → FirstToken d t → UnsignedText 10 t n → n < 2 ^ 32 →
      HttpStatus.fromStr d = .ok (HttpStatus.fromCode (UInt32.ofNat n)) := by
    intro d t n hv h1 h2 h3
    exact (C03_status_parse d ((validUtf8_iff d).1 hv) _).2 ⟨t, n, h1, h2, h3, rfl⟩
  cases s with
  | Unknown v =>
    have hn := numeral_showDec v.toNat
    have hdig : ∀ b ∈ showDec v.toNat, b.toNat < 128 ∧ b ≠ 32 ∧ b ≠ 9 := by
      intro b hb
      obtain ⟨d, hd⟩ := hn.digits b hb
      have := hd.range
      refine ⟨by omega, ?_, ?_⟩ <;> (intro h; subst h; simp at this)
    have hv : validUtf8 (showDec v.toNat) = true := by
      apply validUtf8_of_ascii
      simp only [isAscii, List.all_eq_true, decide_eq_true_eq, UInt8.lt_iff_toNat_lt]
      intro b hb; exact (hdig b hb).1
    have := key (showDec v.toNat) (showDec v.toNat) v.toNat hv
      ⟨fun b hb => (hdig b hb).2, .inl rfl⟩ (.inl hn) v.toNat_lt
    simpa [HttpStatus.display, HttpStatus.toCode] using this
  | _ => decide +kernel

/-- So displaying and parsing keeps the numeric code. -/
theorem C02_display_parse_code (s : HttpStatus) :
    ∃ s', HttpStatus.fromStr s.display = .ok s' ∧ s'.toCode = s.toCode :=
  ⟨_, C02_display_parse s, C01_code_lossless _⟩

example : HttpStatus.display (.Unknown 4294967295) = b!"4294967295" := by decide +kernel

/-! ### C04 -/

/-- The category is given by the hundreds of the code, for every status. -/
theorem C04_category (s : HttpStatus) :
    (s.toCategory = .Informational ↔ 100 ≤ s.toCode.toNat ∧ s.toCode.toNat ≤ 199) ∧
    (s.toCategory = .Success ↔ 200 ≤ s.toCode.toNat ∧ s.toCode.toNat ≤ 299) ∧
    (s.toCategory = .Redirection ↔ 300 ≤ s.toCode.toNat ∧ s.toCode.toNat ≤ 399) ∧
    (s.toCategory = .ClientError ↔ 400 ≤ s.toCode.toNat ∧ s.toCode.toNat ≤ 499) ∧
    (s.toCategory = .ServerError ↔ 500 ≤ s.toCode.toNat ∧ s.toCode.toNat ≤ 599) ∧
    (s.toCategory = .Unknown ↔ s.toCode.toNat < 100 ∨ 600 ≤ s.toCode.toNat) := by
  have hq : (s.toCode / 100).toNat = s.toCode.toNat / 100 := by simp
  unfold HttpStatus.toCategory HttpStatusCategory.fromCode
  generalize s.toCode / 100 = q at hq
  split
  · simp at hq; simp; omega
  · simp at hq; simp; omega
  · simp at hq; simp; omega
  · simp at hq; simp; omega
  · simp at hq; simp; omega
  · rename_i h1 h2 h3 h4 h5
    have g1 : q.toNat ≠ 1 := fun h => h1 (UInt32.toNat_inj.1 (by simpa using h))
    have g2 : q.toNat ≠ 2 := fun h => h2 (UInt32.toNat_inj.1 (by simpa using h))
    have g3 : q.toNat ≠ 3 := fun h => h3 (UInt32.toNat_inj.1 (by simpa using h))
    have g4 : q.toNat ≠ 4 := fun h => h4 (UInt32.toNat_inj.1 (by simpa using h))
    have g5 : q.toNat ≠ 5 := fun h => h5 (UInt32.toNat_inj.1 (by simpa using h))
    simp; omega

example : (HttpStatus.Unknown 299).toCategory = .Success ∧ (HttpStatus.Unknown 600).toCategory = .Unknown := by decide

/-! ### C05 -/

theorem methodName_bytes (m : HttpMethod) : utf8 (methodName m) = m.display := by
  cases m <;> decide +kernel

/-- Display shows the RFC name. -/
theorem C05_display (m : HttpMethod) : m.display = utf8 (methodName m) := (methodName_bytes m).symm

/-- Parsing accepts exactly the seven names up to ASCII case, and fails with a parse error otherwise. -/
theorem C05_parse [CaseMap] (s : Bytes) (hs : AsciiText s) (m : HttpMethod) :
    (HttpMethod.fromStr s = .ok m ↔ SameText s (utf8 (methodName m))) ∧
    ((∀ m', ¬ SameText s (utf8 (methodName m'))) → HttpMethod.fromStr s = .err .parse) := by
  have hname : ∀ m', AsciiText (utf8 (methodName m')) := by
    intro m'; rw [methodName_bytes]
    rw [← isAscii_iff]; cases m' <;> decide
  have hiff : ∀ m', SameText s (utf8 (methodName m')) ↔ CaseMap.upper s = m'.display := by
    intro m'
    rw [sameText_iff_upper hs (hname m'), CaseMap.upper_ascii s ((isAscii_iff s).2 hs), methodName_bytes]
    have : m'.display.map asciiUpperByte = m'.display := by cases m' <;> decide
    rw [this]
  constructor
  · rw [hiff]
    unfold HttpMethod.fromStr
    generalize CaseMap.upper s = u
    constructor
    · intro h
      repeat' split at h
      all_goals first
        | (cases h; assumption)
        | cases h
    · intro h
      subst h
      cases m <;> decide
  · intro h
    have h' := fun m' => mt (hiff m').2 (h m')
    unfold HttpMethod.fromStr
    simp only [HttpMethod.display] at h'
    rw [if_neg (h' .Delete), if_neg (h' .Get), if_neg (h' .Head), if_neg (h' .Options), if_neg (h' .Post),
      if_neg (h' .Put), if_neg (h' .Trace)]

/-- Displaying and parsing a method gives it back. -/
theorem C05_display_parse [CaseMap] (m : HttpMethod) : HttpMethod.fromStr m.display = .ok m := by
  have ha : AsciiText m.display := by rw [← isAscii_iff]; cases m <;> decide
  refine (C05_parse m.display ha m).1.2 ?_
  rw [methodName_bytes]
  rw [sameText_iff_upper ha ha]

/-- `deLEte` is the name of DELETE up to case; `GETX` is no name at all. -/
example : SameText b!"deLEte" (utf8 (methodName .Delete)) ∧ ∀ m, ¬ SameText b!"GETX" (utf8 (methodName m)) := by
  have h1 : AsciiText b!"deLEte" := by rw [← isAscii_iff]; decide
  have h2 : AsciiText b!"GETX" := by rw [← isAscii_iff]; decide
  have h3 : ∀ m, AsciiText (utf8 (methodName m)) := by
    intro m'; rw [methodName_bytes, ← isAscii_iff]; cases m' <;> decide
  refine ⟨(sameText_iff_upper h1 (h3 _)).2 (by rw [methodName_bytes]; decide), fun m => ?_⟩
  rw [sameText_iff_upper h2 (h3 _), methodName_bytes]
  cases m <;> decide

/-! ### C06 -/

/-- A version text is accepted iff it begins with `HTTP/`, a digit, `.`, a digit; the result carries the two
digits and the rest of the text is ignored. `s` ranges over all Rust strings. -/
theorem C06_version_parse (s : Bytes) (hs : IsText s) (v : HttpVersion) :
    HttpVersion.fromStr s = .ok v ↔
      ∃ d1 d2 rest, s = b!"HTTP/" ++ [d1] ++ b!"." ++ [d2] ++ rest ∧
        DigitVal 10 d1 v.major ∧ DigitVal 10 d2 v.minor := by
  replace hs := (validUtf8_iff s).2 hs
  constructor
  · intro h
    unfold HttpVersion.fromStr at h
    split at h <;> try (simp at h; done)
    rename_i p1 hp1
    split at h <;> try (simp at h; done)
    rename_i major p2 hp2
    split at h <;> try (simp at h; done)
    rename_i p3 hp3
    split at h <;> try (simp at h; done)
    rename_i minor p4 hp4
    simp only [Res.ok.injEq] at h
    subst h
    obtain ⟨⟨r1, hr1⟩, -, rfl⟩ := Parser.expect_ok_inv hp1
    obtain ⟨d1, r2, hr2, hd1, rfl⟩ := Parser.parseDigit_ok_inv hp2
    obtain ⟨⟨r3, hr3⟩, -, rfl⟩ := Parser.expect_ok_inv hp3
    obtain ⟨d2, r4, hr4, hd2, rfl⟩ := Parser.parseDigit_ok_inv hp4
    refine ⟨d1, d2, r4, ?_, hd1, hd2⟩
    simp only [Parser.new] at hr1 hr2 hr3 hr4
    simp only [List.drop_zero] at hr1
    subst hr1
    simp only [List.cons_append, List.nil_append, List.length_cons, List.length_nil, List.drop_succ_cons,
      List.drop_zero] at hr2
    subst hr2
    simp only [List.cons_append, List.nil_append, List.length_cons, List.length_nil, List.drop_succ_cons,
      List.drop_zero, List.cons.injEq] at hr3
    obtain ⟨rfl, rfl⟩ := hr3
    simp only [List.cons_append, List.nil_append, List.length_cons, List.length_nil, List.drop_succ_cons,
      List.drop_zero] at hr4
    subst hr4
    rfl
  · rintro ⟨d1, d2, rest, rfl, hd1, hd2⟩
    have a1 : d1 < 0x80 := by have := hd1.range; rw [UInt8.lt_iff_toNat_lt]; simp; omega
    have a2 : d2 < 0x80 := by have := hd2.range; rw [UInt8.lt_iff_toNat_lt]; simp; omega
    have v4 : validUtf8 rest = true :=
      (validUtf8_split a2 (b!"HTTP/" ++ [d1] ++ b!".") rest (by simpa using hs)).2
    have v3 : validUtf8 (d2 :: rest) = true := by rwa [validUtf8_cons_ascii a2]
    have v2 : validUtf8 (46 :: d2 :: rest) = true := by rwa [validUtf8_cons_ascii (by decide)]
    have v1 : validUtf8 (d1 :: 46 :: d2 :: rest) = true := by rwa [validUtf8_cons_ascii a1]
    have v0 : validUtf8 (b!"HTTP/" ++ (d1 :: 46 :: d2 :: rest)) = true := by simpa using hs
    have e1 := Parser.expect_append (pre := []) (e := b!"HTTP/") (post := d1 :: 46 :: d2 :: rest)
      (by simp) v0 v1
    have e2 := Parser.parseDigit_append (pre := b!"HTTP/") a1 v2
    have e3 := Parser.expect_append (pre := b!"HTTP/" ++ [d1]) (e := b!".") (post := d2 :: rest)
      (by simp) v2 v3
    have e4 := Parser.parseDigit_append (pre := b!"HTTP/" ++ [d1] ++ b!".") a2 v4
    have p1 : parseU32 [d1] = .ok v.major := by
      have hd : v.major < 10 := by cases hd1 <;> omega
      unfold parseU32
      rw [(fromStrRadix_iff (n := v.major) (by omega) (by omega)).2 ⟨.inl (.one hd1), by unfold u32Max; omega⟩]
      rfl
    have p2 : parseU32 [d2] = .ok v.minor := by
      have hd : v.minor < 10 := by cases hd2 <;> omega
      unfold parseU32
      rw [(fromStrRadix_iff (n := v.minor) (by omega) (by omega)).2 ⟨.inl (.one hd2), by unfold u32Max; omega⟩]
      rfl
    simp only [List.cons_append, List.nil_append, List.length_cons, List.length_nil, Nat.zero_add,
      Nat.reduceAdd, List.append_assoc, p1, p2] at e1 e2 e3 e4 ⊢
    unfold HttpVersion.fromStr Parser.new
    rw [e1]; dsimp only
    rw [e2]; dsimp only
    rw [e3]; dsimp only
    rw [e4]

/-- Single-digit versions round-trip. -/
theorem C06_version_roundtrip (v : HttpVersion) (h1 : v.major < 10) (h2 : v.minor < 10) :
    HttpVersion.fromStr v.display = .ok v := by
  have sh : ∀ d, d < 10 → showDec d = [digitChar d] := by
    intro d hd; unfold showDec toRadix; simp [hd]
  have hdisp : v.display = b!"HTTP/" ++ [digitChar v.major] ++ b!"." ++ [digitChar v.minor] ++ [] := by
    unfold HttpVersion.display; rw [sh _ h1, sh _ h2]; simp
  have d1 := digitVal_digitChar (r := 10) (by omega) h1
  have d2 := digitVal_digitChar (r := 10) (by omega) h2
  have hv : validUtf8 v.display = true := by
    apply validUtf8_of_ascii
    rw [hdisp, isAscii_iff]
    intro b hb
    simp only [List.append_nil, List.mem_append, List.mem_cons, List.not_mem_nil, or_false] at hb
    have := d1.range; have := d2.range
    rcases hb with (((rfl | rfl | rfl | rfl | rfl) | rfl) | rfl) | rfl <;> first | decide | omega
  exact (C06_version_parse _ ((validUtf8_iff _).1 hv) v).2 ⟨_, _, [], hdisp, d1, d2⟩

example : HttpVersion.fromStr b!"HTTP/1.1 trailing" = .ok ⟨1, 1⟩ := by decide
example : ∃ d1 d2 rest, b!"HTTP/2.0" = b!"HTTP/" ++ [d1] ++ b!"." ++ [d2] ++ rest ∧
    DigitVal 10 d1 2 ∧ DigitVal 10 d2 0 :=
  ⟨50, 48, [], rfl, .dec 2 (by omega) (by omega), .dec 0 (by omega) (by omega)⟩

/-! ### C07 -/

/-- The size parser accepts exactly an optional `+` and hex digits of either case with value below 2^64. -/
theorem C07_hex_parse (t : Bytes) (n : Nat) :
    parseHex64 t = .ok n ↔ UnsignedText 16 t n ∧ n < 2 ^ 64 := by
  unfold parseHex64 Res.ofOption
  have := fromStrRadix_iff (r := 16) (max := u64Max) (n := n) (t := t) (by omega) (by omega)
  have hm : n ≤ u64Max ↔ n < 2 ^ 64 := by unfold u64Max; omega
  rw [hm] at this
  rw [← this]
  cases fromStrRadix 16 u64Max t <;> simp

/-- The size text the writer produces parses back to the size. -/
theorem C07_hex_roundtrip (n : Nat) (h : n < 2 ^ 64) : parseHex64 (showHex n) = .ok n :=
  (C07_hex_parse _ _).2 ⟨.inl (numeral_showHex n), h⟩

example : UnsignedText 16 b!"+fF" 255 ∧ showHex 255 = b!"ff" := by
  refine ⟨.inr ⟨b!"fF", rfl, ?_⟩, by decide +kernel⟩
  exact (Numeral.one (.lower 15 (by omega) (by omega) (by omega))).snoc (.upper 15 (by omega) (by omega) (by omega))

end HttpIo
