import Verif.Spec.Faults
import Verif.Lemmas.Panic

/-! Which error the parsers of lines give, exactly. -/

namespace HttpIo
open Spec

/-! ### Versions -/

theorem version_name {v : Bytes} (hv : validUtf8 v = true) (hne : v ≠ []) (hp : ∀ r, v ≠ b!"HTTP/" ++ r) (hc : ¬ CutVersion v) :
    HttpVersion.fromStr v = .err .parse := by
  rw [← version_panic_iff hv] at hc
  have hlt : ¬ ((Parser.new v).position ≥ (Parser.new v).s.length) := by
    have : 0 < v.length := List.length_pos_iff.2 hne
    show ¬ (0 ≥ v.length); omega
  unfold HttpVersion.fromStr at hc ⊢
  rcases hy : (Parser.new v).expect b!"HTTP/" with ⟨y, p⟩
  cases y with
  | ok u =>
    obtain ⟨⟨rest, hr⟩, _⟩ := Parser.expect_ok_inv hy
    exact absurd hr (hp rest)
  | panic => rw [hy] at hc; simp at hc
  | err e =>
    dsimp only
    unfold Parser.expect at hy
    rw [if_neg hlt] at hy
    split at hy
    · split at hy
      · simp only [Prod.mk.injEq, Res.err.injEq] at hy; rw [hy.1]
      · simp at hy
    · rename_i h; exact (slice_ne_err h).elim
    · simp at hy

theorem version_http {r : Bytes} (hv : validUtf8 (b!"HTTP/" ++ r) = true) :
    validUtf8 r = true ∧ Parser.expect ⟨b!"HTTP/" ++ r, 0⟩ b!"HTTP/" = (.ok (), ⟨b!"HTTP/" ++ r, 5⟩) := by
  have hr : validUtf8 r = true := by rwa [validUtf8_append _ _ (by decide)] at hv
  have e1 := Parser.expect_append (pre := []) (e := b!"HTTP/") (post := r) (by simp) hv hr
  simp only [List.nil_append, List.length_nil, Nat.zero_add] at e1
  exact ⟨hr, e1⟩

theorem digit_parse {d : UInt8} {n : Nat} (h : DigitVal 10 d n) : parseU32 [d] = .ok n := by
  rcases parseU32_one d with ⟨m, hm, hd⟩ | ⟨_, hno⟩
  · rw [hm]
    have : m = n := by
      have h1 := (fromStrRadix_iff (max := m + n) (by omega) (by omega)).2 ⟨unsigned_one.2 hd, by omega⟩
      have h2 := (fromStrRadix_iff (max := m + n) (by omega) (by omega)).2 ⟨unsigned_one.2 h, by omega⟩
      rw [h1] at h2; simpa using h2
    rw [this]
  · exact absurd h (hno n)

theorem digit_wrong {d : UInt8} (h : ∀ n, ¬ DigitVal 10 d n) : parseU32 [d] = .err .parseInt := by
  rcases parseU32_cases [d] with ⟨n, _, h2, _⟩ | ⟨h1, _⟩
  · exact absurd (unsigned_one.1 h2) (h n)
  · exact h1

theorem version_noMajor : HttpVersion.fromStr b!"HTTP/" = .err .unexpectedEof := by decide +kernel

theorem version_major {b : UInt8} {r : Bytes} (hv : validUtf8 (b!"HTTP/" ++ b :: r) = true) (hb : b < 0x80)
    (hno : ∀ n, ¬ DigitVal 10 b n) : HttpVersion.fromStr (b!"HTTP/" ++ b :: r) = .err .parseInt := by
  obtain ⟨hr, e1⟩ := version_http hv
  have hr1 : validUtf8 r = true := by rwa [validUtf8_cons_ascii hb] at hr
  have e2 := Parser.parseDigit_append (pre := b!"HTTP/") hb hr1
  rw [show (b!"HTTP/").length = 5 by rfl, digit_wrong hno] at e2
  unfold HttpVersion.fromStr Parser.new
  rw [e1]; dsimp only
  rw [e2]

/-- After the first digit. -/
theorem version_after {d : UInt8} {n : Nat} {r : Bytes} (hv : validUtf8 (b!"HTTP/" ++ d :: r) = true) (hd : DigitVal 10 d n) :
    validUtf8 r = true ∧ HttpVersion.fromStr (b!"HTTP/" ++ d :: r) =
      match Parser.expect ⟨b!"HTTP/" ++ d :: r, 6⟩ b!"." with
      | (.err e, _) => .err e
      | (.panic, _) => .panic
      | (.ok (), p3) =>
        match p3.parseDigit with
        | (.err e, _) => .err e
        | (.panic, _) => .panic
        | (.ok minor, _) => .ok ⟨n, minor⟩ := by
  obtain ⟨hr, e1⟩ := version_http hv
  have hb := digit_ascii hd
  have hr1 : validUtf8 r = true := by rwa [validUtf8_cons_ascii hb] at hr
  have e2 := Parser.parseDigit_append (pre := b!"HTTP/") hb hr1
  rw [show (b!"HTTP/").length = 5 by rfl, digit_parse hd] at e2
  refine ⟨hr1, ?_⟩
  unfold HttpVersion.fromStr Parser.new
  rw [e1]; dsimp only
  rw [e2]
  rfl

theorem version_noDot {d : UInt8} {n : Nat} (hv : validUtf8 (b!"HTTP/" ++ [d]) = true) (hd : DigitVal 10 d n) :
    HttpVersion.fromStr (b!"HTTP/" ++ [d]) = .err .unexpectedEof := by
  rw [(version_after hv hd).2]
  simp [Parser.expect]

theorem version_dot {d b : UInt8} {n : Nat} {r : Bytes} (hv : validUtf8 (b!"HTTP/" ++ d :: b :: r) = true) (hd : DigitVal 10 d n)
    (hb : b < 0x80) (hne : b ≠ 46) : HttpVersion.fromStr (b!"HTTP/" ++ d :: b :: r) = .err .parse := by
  obtain ⟨h1, h2⟩ := version_after hv hd
  rw [h2]
  have hr : validUtf8 r = true := by rwa [validUtf8_cons_ascii hb] at h1
  have := expect1_other (pre := b!"HTTP/" ++ [d]) (e := 46) hr hb hne
  simp only [List.cons_append, List.nil_append, List.length_cons, List.length_nil] at this ⊢
  generalize Parser.expect _ _ = x at this
  obtain ⟨x, y⟩ := x
  dsimp only at this
  rw [this]

/-- After the dot. -/
theorem version_dotted {d : UInt8} {n : Nat} {r : Bytes} (hv : validUtf8 (b!"HTTP/" ++ d :: 46 :: r) = true) (hd : DigitVal 10 d n) :
    validUtf8 r = true ∧ HttpVersion.fromStr (b!"HTTP/" ++ d :: 46 :: r) =
      match Parser.parseDigit ⟨b!"HTTP/" ++ d :: 46 :: r, 7⟩ with
      | (.err e, _) => .err e
      | (.panic, _) => .panic
      | (.ok minor, _) => .ok ⟨n, minor⟩ := by
  obtain ⟨h1, h2⟩ := version_after hv hd
  have hr : validUtf8 r = true := by rwa [validUtf8_cons_ascii (by decide)] at h1
  have e3 := Parser.expect_append (pre := b!"HTTP/" ++ [d]) (e := b!".") (post := r) (by simp) h1 hr
  simp only [List.cons_append, List.nil_append, List.length_cons, List.length_nil] at e3
  refine ⟨hr, ?_⟩
  rw [h2]
  simp only [List.cons_append, List.nil_append]
  rw [e3]

theorem version_noMinor {d : UInt8} {n : Nat} (hv : validUtf8 (b!"HTTP/" ++ [d, 46]) = true) (hd : DigitVal 10 d n) :
    HttpVersion.fromStr (b!"HTTP/" ++ [d, 46]) = .err .unexpectedEof := by
  rw [(version_dotted hv hd).2]
  simp [Parser.parseDigit]

theorem version_minor {d b : UInt8} {n : Nat} {r : Bytes} (hv : validUtf8 (b!"HTTP/" ++ d :: 46 :: b :: r) = true) (hd : DigitVal 10 d n)
    (hb : b < 0x80) (hno : ∀ n, ¬ DigitVal 10 b n) : HttpVersion.fromStr (b!"HTTP/" ++ d :: 46 :: b :: r) = .err .parseInt := by
  obtain ⟨h1, h2⟩ := version_dotted hv hd
  rw [h2]
  have hr : validUtf8 r = true := by rwa [validUtf8_cons_ascii hb] at h1
  have e4 := Parser.parseDigit_append (pre := b!"HTTP/" ++ [d] ++ b!".") hb hr
  simp only [List.cons_append, List.nil_append, List.length_cons, List.length_nil] at e4 ⊢
  rw [e4, digit_wrong hno]

/-- Exactly which error a version gives. -/
theorem version_err_iff {v : Bytes} (hv : validUtf8 v = true) (e : Err) : HttpVersion.fromStr v = .err e ↔ VersionFault v e := by
  have lt : ∀ {b : UInt8}, b.toNat < 128 ↔ b < 0x80 := fun {b} => by rw [UInt8.lt_iff_toNat_lt]; simp
  constructor
  · intro h
    have hnp : ¬ CutVersion v := fun hc => by rw [(version_panic_iff hv).2 hc] at h; simp at h
    by_cases h0 : v = []
    · subst h0
      have : e = .unexpectedEof := by
        rw [show HttpVersion.fromStr [] = .err .unexpectedEof by decide +kernel] at h; simpa using h.symm
      subst this; exact .empty
    by_cases hp : ∃ r, v = b!"HTTP/" ++ r
    case neg =>
      rw [version_name hv h0 (fun r hr => hp ⟨r, hr⟩) hnp] at h
      simp only [Res.err.injEq] at h
      subst h
      exact .name h0 (fun r hr => hp ⟨r, by rw [hr, httpSlash]⟩) hnp
    obtain ⟨r, rfl⟩ := hp
    cases r with
    | nil =>
      rw [List.append_nil, version_noMajor] at h
      simp only [Res.err.injEq] at h
      subst h
      rw [List.append_nil, ← httpSlash]; exact .noMajor
    | cons d r =>
      have hd : d < 0x80 := by
        rw [← lt]
        apply Nat.lt_of_not_le
        intro hx
        exact hnp (.inr (.inl ⟨d, r, by rw [httpSlash], hx⟩))
      by_cases hdig : ∃ n, DigitVal 10 d n
      case neg =>
        have hno : ∀ n, ¬ DigitVal 10 d n := fun n hn => hdig ⟨n, hn⟩
        rw [version_major hv hd hno] at h
        simp only [Res.err.injEq] at h
        subst h
        rw [← httpSlash]; exact .major (lt.2 hd) hno
      obtain ⟨n, hdig⟩ := hdig
      cases r with
      | nil =>
        rw [version_noDot hv hdig] at h
        simp only [Res.err.injEq] at h
        subst h
        rw [← httpSlash]; exact .noDot hdig
      | cons p r =>
        have hpa : p < 0x80 := by
          rw [← lt]
          apply Nat.lt_of_not_le
          intro hx
          exact hnp (.inr (.inr (.inl ⟨d, n, p, r, by rw [httpSlash], hdig, hx⟩)))
        by_cases hdot : p = 46
        case neg =>
          rw [version_dot hv hdig hpa hdot] at h
          simp only [Res.err.injEq] at h
          subst h
          rw [← httpSlash]; exact .dot hdig (lt.2 hpa) hdot
        subst hdot
        cases r with
        | nil =>
          rw [version_noMinor hv hdig] at h
          simp only [Res.err.injEq] at h
          subst h
          rw [← httpSlash]; exact .noMinor hdig
        | cons d2 r =>
          have hd2 : d2 < 0x80 := by
            rw [← lt]
            apply Nat.lt_of_not_le
            intro hx
            exact hnp (.inr (.inr (.inr ⟨d, n, d2, r, by rw [httpSlash], hdig, hx⟩)))
          by_cases hdig2 : ∃ n, DigitVal 10 d2 n
          · obtain ⟨n2, hdig2⟩ := hdig2
            have := (versionText_iff hv ⟨n, n2⟩).2 ⟨d, d2, r, by rw [httpSlash]; simp, hdig, hdig2⟩
            rw [this] at h; simp at h
          · have hno : ∀ n, ¬ DigitVal 10 d2 n := fun n hn => hdig2 ⟨n, hn⟩
            rw [version_minor hv hdig hd2 hno] at h
            simp only [Res.err.injEq] at h
            subst h
            rw [← httpSlash]; exact .minor hdig (lt.2 hd2) hno
  · intro h
    cases h with
    | empty => decide +kernel
    | name h1 h2 h3 => exact version_name hv h1 (fun r hr => h2 r (by rw [hr, httpSlash])) h3
    | noMajor => rw [httpSlash]; exact version_noMajor
    | major h1 h2 => rw [httpSlash] at hv ⊢; exact version_major hv (lt.1 h1) h2
    | noDot h1 => rw [httpSlash] at hv ⊢; exact version_noDot hv h1
    | dot h1 h2 h3 => rw [httpSlash] at hv ⊢; exact version_dot hv h1 (lt.1 h2) h3
    | noMinor h1 => rw [httpSlash] at hv ⊢; exact version_noMinor hv h1
    | minor h1 h2 h3 => rw [httpSlash] at hv ⊢; exact version_minor hv h1 (lt.1 h2) h3

/-! ### First lines -/

theorem method_err [CaseMap] {tok : Bytes} (h : ∀ m, CaseMap.upper tok ≠ utf8 (methodName m)) : HttpMethod.fromStr tok = .err .parse := by
  cases hm : HttpMethod.fromStr tok with
  | ok m => exact absurd ((method_iff tok m).1 hm) (h m)
  | panic => exact absurd hm (HttpMethod.fromStr_ne_panic _)
  | err e =>
    unfold HttpMethod.fromStr at hm
    repeat' split at hm
    all_goals simp only [Res.err.injEq, reduceCtorEq] at hm
    rw [hm]

theorem blanks_valid {g : Bytes} (h : NoWord g) : validUtf8 g = true := by
  induction g with
  | nil => rfl
  | cons b g ih =>
    have : b < 0x80 := by rcases h b (by simp) with rfl | rfl <;> decide
    rw [validUtf8_cons_ascii this]
    exact ih fun x hx => h x (by simp [hx])

theorem firstToken_blanks {w g : Bytes} (hw : ∀ b ∈ w, b ≠ 32 ∧ b ≠ 9) (hg : NoWord g) : FirstToken (w ++ g) w := by
  refine ⟨hw, ?_⟩
  cases g with
  | nil => left; simp
  | cons b g => exact .inr ⟨b, g, rfl, hg b (by simp)⟩

/-- Exactly which error a request line gives. -/
theorem requestLine_err_iff [CaseMap] {line : Bytes} (hv : validUtf8 line = true) (hline : line ≠ []) (e : Err) :
    parseRequestLine line = .err e ↔ RequestLineFault line e := by
  constructor
  · intro h
    by_cases hw : ∃ m target v, RequestWords line m target v
    · obtain ⟨m, target, v, hw⟩ := hw
      obtain ⟨h1, h2⟩ := requestLine_outcome hv hw
      rw [h] at h2
      cases hx : HttpVersion.fromStr v with
      | ok => rw [hx] at h2; simp [Res.map] at h2
      | panic => rw [hx] at h2; simp [Res.map] at h2
      | err e' =>
        rw [hx] at h2
        simp only [Res.map, Res.err.injEq] at h2
        subst h2
        exact .version hw ((version_err_iff h1 e).1 hx)
    unfold parseRequestLine Parser.new at h
    obtain ⟨tok, g1, l2, rfl, ht, hb, hr, -, -⟩ := token_split line
    obtain ⟨v1, v2⟩ := valid_parts ht hb hv
    have e1 := parseToken_parts [] tok g1 l2 hline ht hb hr hv
    simp only [List.nil_append, List.length_nil] at e1
    rw [e1] at h
    dsimp only at h
    cases hm : HttpMethod.fromStr tok with
    | err e' =>
      have hno : ∀ m, CaseMap.upper tok ≠ utf8 (methodName m) := fun m hx => by
        rw [(method_iff tok m).2 hx] at hm; simp at hm
      rw [method_err hno] at h
      simp only [Res.err.injEq] at h
      subst h
      exact .method ht hno
    | panic => exact absurd hm (HttpMethod.fromStr_ne_panic _)
    | ok m =>
      rw [hm] at h
      dsimp only at h
      have hup := (method_iff tok m).1 hm
      have hwt : Word tok := by
        refine ⟨?_, ht.1⟩
        rintro rfl
        rw [CaseMap.upper_ascii _ (by decide), methodName_bytes] at hup
        cases m <;> simp [HttpMethod.display] at hup
      obtain ⟨target, g2, l3, rfl, ht2, hb2, hr2, -, -⟩ := token_split l2
      by_cases hne2 : target ++ g2 ++ l3 = []
      · rw [hne2, List.append_nil, Parser.parseToken_nil] at h
        simp only [Res.err.injEq] at h
        subst h
        rw [hne2, List.append_nil]
        exact .noTarget rfl hwt hb hup
      obtain ⟨v3, v4⟩ := valid_parts ht2 hb2 v2
      rw [parseToken_parts (tok ++ g1) target g2 l3 hne2 ht2 hb2 hr2 v2] at h
      dsimp only at h
      have hg1 := gap_of_rest ht hb hr hne2
      have hwtar : Word target := by
        refine ⟨?_, ht2.1⟩
        rintro rfl
        rcases ht2.2 with h | ⟨b, r, h, hb'⟩
        · exact hne2 h
        · exact hr ⟨b, r, by simpa using h, hb'⟩
      by_cases hne3 : l3 = []
      · subst hne3
        rw [List.append_nil, Parser.parseToken_nil] at h
        simp only [Res.err.injEq] at h
        subst h
        exact .noVersion (tok := tok) (g := g1) (target := target) (g' := g2) (by simp) hwt hg1 hwtar hb2 hup
      · exfalso
        apply hw
        obtain ⟨v, bl, l4, rfl, ht3, hb3, hr3, -, -⟩ := token_split l3
        have hg2 := gap_of_rest ht2 hb2 hr2 hne3
        refine ⟨m, target, v, tok, g1, g2, v ++ bl ++ l4, by simp, hwt, hg1, hwtar, hg2, hup, ht3, ?_⟩
        rintro rfl
        apply hr2
        rcases ht3.2 with h | ⟨b, r, h, hb'⟩
        · exact absurd h hne3
        · exact ⟨b, r, by simpa using h, hb'⟩
  · intro h
    cases h with
    | @method tok ht hno =>
      obtain ⟨tok', g1, l2, rfl, ht', hb, hr, -, -⟩ := token_split line
      have := ht.unique ht'
      subst this
      have e1 := parseToken_parts [] tok g1 l2 hline ht hb hr hv
      simp only [List.nil_append, List.length_nil] at e1
      unfold parseRequestLine Parser.new
      rw [e1]; dsimp only
      rw [method_err hno]
    | @noTarget tok g m hl hw hg hup =>
      subst hl
      have ht := firstToken_blanks hw.2 hg
      have e1 := parseToken_parts [] tok g [] (by simp [hw.1]) (by simpa using ht) hg (by rintro ⟨_, _, h, _⟩; simp at h) (by simpa using hv)
      simp only [List.nil_append, List.length_nil, List.append_nil] at e1
      unfold parseRequestLine Parser.new
      rw [e1]; dsimp only
      rw [(method_iff tok m).2 hup]; dsimp only
      rw [Parser.parseToken_nil]
    | @noVersion tok g target g' m hl hw hg hw2 hg' hup =>
      subst hl
      have hline' : tok ++ g ++ target ++ g' = tok ++ g ++ (target ++ g') := by simp
      rw [hline'] at hv ⊢
      have ht1 := firstToken_gap hw.2 hg (target ++ g')
      have hs2 : ¬ StartsBlank (target ++ g') := not_startsBlank_word hw2 _
      obtain ⟨v1, v2⟩ := valid_parts ht1 hg.2 hv
      have e1 := parseToken_parts [] tok g _ (by simp [hw.1]) ht1 hg.2 hs2 hv
      simp only [List.nil_append, List.length_nil] at e1
      have ht2 := firstToken_blanks hw2.2 hg'
      have e2 := parseToken_parts (tok ++ g) target g' [] (by simp [hw2.1]) (by simpa using ht2) hg' (by rintro ⟨_, _, h, _⟩; simp at h)
        (by simpa using v2)
      simp only [List.append_nil] at e2
      unfold parseRequestLine Parser.new
      rw [e1]; dsimp only
      rw [(method_iff tok m).2 hup]; dsimp only
      rw [e2]; dsimp only
      rw [Parser.parseToken_nil]
    | version hw hf =>
      obtain ⟨h1, h2⟩ := requestLine_outcome hv hw
      rw [h2, (version_err_iff h1 e).2 hf]; rfl

/-- The error of the text after the version. -/
theorem status_err_iff {s : Bytes} (hv : validUtf8 s = true) (e : Err) : HttpStatus.fromStr s = .err e ↔
    s = [] ∧ e = .unexpectedEof ∨ s ≠ [] ∧ e = .parseInt ∧ ∃ t, FirstToken s t ∧ ∀ n, n < 2 ^ 32 → ¬ UnsignedText 10 t n := by
  unfold HttpStatus.fromStr Parser.parseNumber Parser.new
  by_cases h0 : s = []
  · subst h0
    have := Parser.parseToken_nil []
    simp only [List.length_nil] at this
    rw [this]
    simp [eq_comm]
  · obtain ⟨tok, g, l, rfl, ht, hb, hr, -, -⟩ := token_split s
    have e1 := parseToken_parts [] tok g l h0 ht hb hr hv
    simp only [List.nil_append, List.length_nil] at e1
    rw [e1]; dsimp only
    rcases parseU32_cases tok with ⟨n, h1, h2, h3⟩ | ⟨h1, h2⟩
    · rw [h1]
      refine iff_of_false (by simp) ?_
      rintro (⟨h, _⟩ | ⟨_, _, t, k1, k2⟩)
      · exact h0 h
      · rw [k1.unique ht] at k2; exact k2 n h3 h2
    · rw [h1]
      constructor
      · intro h
        simp only [Res.err.injEq] at h
        exact .inr ⟨h0, h.symm, tok, ht, fun n hn hu => absurd (h2 n hu) (by omega)⟩
      · rintro (⟨h, _⟩ | ⟨_, h, _⟩)
        · exact absurd h h0
        · rw [h]

/-- Exactly which error a status line gives. -/
theorem statusLine_err_iff {line : Bytes} (hv : validUtf8 line = true) (hline : line ≠ []) (e : Err) :
    parseStatusLine line = .err e ↔ StatusLineFault line e := by
  obtain ⟨tok, g, rest, hl, ht, hb, hr, -, -⟩ := token_split line
  subst hl
  obtain ⟨v1, v2⟩ := valid_parts ht hb hv
  have hout : parseStatusLine (tok ++ g ++ rest) = .err e ↔ HttpVersion.fromStr tok = .err e ∨
      ∃ ver, HttpVersion.fromStr tok = .ok ver ∧ HttpStatus.fromStr rest = .err e := by
    unfold parseStatusLine Parser.new
    have := parseToken_parts [] tok g rest hline ht hb hr hv
    simp only [List.nil_append, List.length_nil] at this
    rw [this]
    dsimp only
    cases hver : HttpVersion.fromStr tok with
    | err => simp
    | panic => simp
    | ok ver' =>
      dsimp only
      have := parseRemaining_post (tok ++ g) rest v2
      generalize Parser.parseRemaining _ = x at this
      obtain ⟨x, y⟩ := x
      dsimp only at this
      rw [this]
      dsimp only
      cases hs : HttpStatus.fromStr rest <;> simp
  rw [hout]
  constructor
  · rintro (h | ⟨ver, h1, h2⟩)
    · exact .version ht ((version_err_iff v1 e).1 h)
    · have hver := (versionText_iff v1 ver).1 h1
      rcases (status_err_iff v2 e).1 h2 with ⟨rfl, rfl⟩ | ⟨hne, rfl, t, k1, k2⟩
      · exact .noCode (g := g) (by simp) ht hb hver
      · exact .code rfl ht (gap_of_rest ht hb hr hne) hr hne hver k1 k2
  · intro h
    cases h with
    | version k1 k2 =>
      rw [k1.unique ht] at k2
      exact .inl ((version_err_iff v1 e).2 k2)
    | @noCode v g' major minor k1 k2 k3 k4 =>
      have := k2.unique ht
      subst this
      have hrest : rest = [] := by
        rw [List.append_assoc, List.append_cancel_left_eq] at k1
        cases rest with
        | nil => rfl
        | cons b rest =>
          exfalso
          exact hr ⟨b, rest, rfl, k3 b (by rw [← k1]; simp)⟩
      subst hrest
      exact .inr ⟨⟨major, minor⟩, (versionText_iff v1 ⟨major, minor⟩).2 k4, (status_err_iff v2 _).2 (.inl ⟨rfl, rfl⟩)⟩
    | @code v g' rest' t major minor k1 k2 k3 k4 k5 k6 k7 k8 =>
      have := k2.unique ht
      subst this
      have hrest : rest = rest' := by
        rw [List.append_assoc, List.append_assoc, List.append_cancel_left_eq] at k1
        have : ∀ (g g' : Bytes), NoWord g → NoWord g' → g ++ rest = g' ++ rest' → rest = rest' := by
          intro g
          induction g with
          | nil =>
            intro g' _ h2 h
            cases g' with
            | nil => simpa using h
            | cons b g' => exact absurd ⟨b, g' ++ rest', by simpa using h, h2 b (by simp)⟩ hr
          | cons a g ih =>
            intro g' h1 h2 h
            cases g' with
            | nil => exact absurd ⟨a, g ++ rest, by simpa using h.symm, h1 a (by simp)⟩ k4
            | cons b g' =>
              simp only [List.cons_append, List.cons.injEq] at h
              exact ih g' (fun x hx => h1 x (by simp [hx])) (fun x hx => h2 x (by simp [hx])) h.2
        exact this g g' hb k3.2 k1
      subst hrest
      exact .inr ⟨⟨major, minor⟩, (versionText_iff v1 ⟨major, minor⟩).2 k6, (status_err_iff v2 _).2 (.inr ⟨k5, rfl, t, k7, k8⟩)⟩

/-! ### Header lines -/

/-- Exactly which error a header line gives. -/
theorem header_err_iff [CaseMap] {line : Bytes} (hv : validUtf8 line = true) (hne : line ≠ []) (e : Err) :
    HttpHeader.deserialize line = .err e ↔ e = .parse ∧ (∀ k v, ¬ HeaderLine line k v) ∧ ¬ CutHeader line := by
  have hkey : ∀ e, HttpHeader.deserialize line = .err e → e = .parse := by
    intro e h
    by_cases hc : (58 : UInt8) ∈ line
    · obtain ⟨k, rest, rfl, hk⟩ := mem_split_first hc
      cases rest with
      | nil => rw [HttpHeader.deserialize_end hv hk] at h; simpa using h.symm
      | cons b rest =>
        by_cases hb : b = 32
        · subst hb
          rw [show k ++ 58 :: 32 :: rest = k ++ b!": " ++ rest by simp] at hv h
          rw [HttpHeader.deserialize_ok hv hk] at h; simp at h
        · rw [HttpHeader.deserialize_bad hv hk hb] at h
          split at h
          · simpa using h.symm
          · simp at h
    · unfold HttpHeader.deserialize Parser.new Parser.parseUntil at h
      rw [if_neg (by have := List.length_pos_iff.2 hne; show ¬ (0 ≥ line.length); omega)] at h
      have hs := sliceFrom_append (pre := []) hv
      simp only [List.nil_append, List.length_nil] at hs
      dsimp only at h
      rw [hs] at h
      dsimp only at h
      rw [findSub_colon_none hc] at h
      simpa using h.symm
  constructor
  · intro h
    refine ⟨hkey e h, fun k v hkv => ?_, fun hc => ?_⟩
    · rw [(HttpHeader.deserialize_iff hv _).2 ⟨k, v, hkv, rfl⟩] at h; simp at h
    · rw [(HttpHeader.deserialize_panic_iff hv).2 hc] at h; simp at h
  · rintro ⟨rfl, h1, h2⟩
    cases hd : HttpHeader.deserialize line with
    | ok x =>
      obtain ⟨k, v, hkv, _⟩ := (HttpHeader.deserialize_iff hv x).1 hd
      exact absurd hkv (h1 k v)
    | panic => exact absurd ((HttpHeader.deserialize_panic_iff hv).1 hd) h2
    | err e => rw [hkey e hd]

end HttpIo
