import Verif.Lemmas.Message
import Verif.Props.Parser
import Verif.Spec.Panic

/-! When the parsers panic, exactly. -/

namespace HttpIo
open Spec

/-! ### Versions -/

theorem lead_cont {b : UInt8} {rest : Bytes} (hv : validUtf8 (b :: rest) = true) (hb : ¬ b < 0x80) :
    ∃ x r, rest = x :: r ∧ isCont x = true := by
  rw [validUtf8_cons, if_neg hb] at hv
  cases rest with
  | nil => simp at hv
  | cons x r =>
    refine ⟨x, r, rfl, ?_⟩
    split at hv
    · simp at hv; exact hv.1
    · split at hv
      · cases r with
        | nil => simp at hv
        | cons b2 r =>
          simp only [Bool.and_eq_true] at hv
          have h2 := hv.1.1
          rw [isCont_iff]
          split at h2
          · simp [u8le] at h2; omega
          · split at h2
            · simp [u8le] at h2; omega
            · rwa [isCont_iff] at h2
      · split at hv
        · cases r with
          | nil => simp at hv
          | cons b2 r =>
            cases r with
            | nil => simp at hv
            | cons b3 r =>
              simp only [Bool.and_eq_true] at hv
              have h2 := hv.1.1.1
              rw [isCont_iff]
              split at h2
              · simp [u8le] at h2; omega
              · split at h2
                · simp [u8le] at h2; omega
                · rwa [isCont_iff] at h2
        · simp at hv

/-- One byte cannot be cut off a character that has more. -/
theorem slice_lead {pre rest : Bytes} {b : UInt8} (hv : validUtf8 (b :: rest) = true) (hb : ¬ b < 0x80) :
    slice (pre ++ b :: rest) pre.length (pre.length + 1) = .panic := by
  obtain ⟨x, r, rfl, hx⟩ := lead_cont hv hb
  unfold slice
  have : isCharBoundary (pre ++ b :: x :: r) (pre.length + 1) = false := by
    unfold isCharBoundary
    simp [hx]
  rw [this]; simp

theorem parseDigit_lead {pre rest : Bytes} {b : UInt8} (hv : validUtf8 (b :: rest) = true) (hb : ¬ b < 0x80) :
    (Parser.parseDigit ⟨pre ++ b :: rest, pre.length⟩).1 = .panic := by
  unfold Parser.parseDigit
  rw [if_neg (by simp)]
  dsimp only
  rw [slice_lead hv hb]

theorem expect1_lead {pre rest : Bytes} {b e : UInt8} (hv : validUtf8 (b :: rest) = true) (hb : ¬ b < 0x80) :
    (Parser.expect ⟨pre ++ b :: rest, pre.length⟩ [e]).1 = .panic := by
  unfold Parser.expect
  rw [if_neg (by simp)]
  dsimp only
  rw [show min (pre ++ b :: rest).length (pre.length + [e].length) = pre.length + 1 by simp, slice_lead hv hb]

theorem expect1_other {pre rest : Bytes} {b e : UInt8} (hr : validUtf8 rest = true) (hb : b < 0x80) (hne : b ≠ e) :
    (Parser.expect ⟨pre ++ b :: rest, pre.length⟩ [e]).1 = .err .parse := by
  unfold Parser.expect
  rw [if_neg (by simp)]
  dsimp only
  rw [show min (pre ++ b :: rest).length (pre.length + [e].length) = pre.length + 1 by simp, slice_ascii1 hb hr]
  simp [hne]

theorem parseU32_one (b : UInt8) :
    (∃ n, parseU32 [b] = .ok n ∧ DigitVal 10 b n) ∨ (∃ e, parseU32 [b] = .err e) ∧ ∀ n, ¬ DigitVal 10 b n := by
  rcases parseU32_cases [b] with ⟨n, h1, h2, _⟩ | ⟨h1, h2⟩
  · exact .inl ⟨n, h1, unsigned_one.1 h2⟩
  · refine .inr ⟨⟨_, h1⟩, fun n hn => ?_⟩
    have := h2 n (unsigned_one.2 hn)
    have : n < 10 := by cases hn <;> omega
    omega

theorem ge128 {b : UInt8} : 128 ≤ b.toNat ↔ ¬ b < 0x80 := by
  rw [UInt8.lt_iff_toNat_lt]; simp

theorem httpSlash : utf8 "HTTP/" = b!"HTTP/" := by decide +kernel

theorem digit_ascii {b : UInt8} {n : Nat} (h : DigitVal 10 b n) : b < 0x80 := by
  have := h.range; rw [UInt8.lt_iff_toNat_lt]; simp; omega

/-- Exactly which version texts panic. -/
theorem version_panic_iff {v : Bytes} (hv : validUtf8 v = true) : HttpVersion.fromStr v = .panic ↔ CutVersion v := by
  unfold CutVersion
  rw [httpSlash]
  by_cases hp : ∃ r, v = b!"HTTP/" ++ r
  · obtain ⟨r, rfl⟩ := hp
    have hr : validUtf8 r = true := by rwa [validUtf8_append _ _ (by decide)] at hv
    have e1 := Parser.expect_append (pre := []) (e := b!"HTTP/") (post := r) (by simp) hv hr
    simp only [List.nil_append, List.length_nil, Nat.zero_add] at e1
    -- no character lies across the end of `HTTP/`
    have h0 : ¬ ∃ a b rest, b!"HTTP/" ++ r = a ++ b :: rest ∧ a.length = 5 ∧ 128 ≤ b.toNat ∧ b.toNat < 192 := by
      rintro ⟨a, b, rest, he, ha, h1, h2⟩
      obtain ⟨rfl, rfl⟩ := List.append_inj he (by rw [ha]; rfl)
      have := not_cont_head hr
      rw [← Bool.not_eq_true, isCont_iff] at this
      omega
    rw [or_iff_right h0]
    simp only [List.append_cancel_left_eq]
    unfold HttpVersion.fromStr Parser.new
    rw [e1]
    dsimp only
    cases r with
    | nil => simp [Parser.parseDigit]
    | cons d r =>
      by_cases hd : d < 0x80
      · have hr1 : validUtf8 r = true := by rwa [validUtf8_cons_ascii hd] at hr
        have e2 := Parser.parseDigit_append (pre := b!"HTTP/") hd hr1
        rw [show (b!"HTTP/").length = 5 by rfl] at e2
        rw [show (b!"HTTP/").length = 5 by rfl, e2]
        rcases parseU32_one d with ⟨n, hn, hdn⟩ | ⟨⟨e, he⟩, hno⟩
        · rw [hn]
          dsimp only
          cases r with
          | nil =>
            simp only [Parser.expect, List.length_append, List.length_cons, List.length_nil, ge_iff_le]
            simp only [Nat.reduceAdd, Nat.le_refl, if_true, reduceCtorEq, false_iff]
            rintro (⟨b, rest, h, hb⟩ | ⟨d', n', b, rest, h, _⟩ | ⟨d', n', b, rest, h, _⟩)
            · simp only [List.cons.injEq] at h
              rw [← h.1] at hb; exact ge128.1 hb hd
            · simp at h
            · simp at h
          | cons p r =>
            by_cases hpa : p < 0x80
            · have hr2 : validUtf8 r = true := by rwa [validUtf8_cons_ascii hpa] at hr1
              by_cases hdot : p = 46
              · subst hdot
                have e3 := Parser.expect_append (pre := b!"HTTP/" ++ [d]) (e := b!".") (post := r) (by simp) hr1 hr2
                simp only [List.cons_append, List.nil_append, List.length_cons, List.length_nil] at e3
                simp only [List.cons_append, List.nil_append, List.length_cons, List.length_nil]
                rw [e3]
                dsimp only
                cases r with
                | nil =>
                  simp only [Parser.parseDigit, List.length_append, List.length_cons, List.length_nil, ge_iff_le]
                  simp only [Nat.reduceAdd, Nat.le_refl, if_true, reduceCtorEq, false_iff]
                  rintro (⟨b, rest, h, hb⟩ | ⟨d', n', b, rest, h, _, hb⟩ | ⟨d', n', b, rest, h, _⟩)
                  · simp only [List.cons.injEq] at h
                    rw [← h.1] at hb; exact ge128.1 hb hd
                  · simp only [List.cons.injEq] at h
                    rw [← h.2.1] at hb; exact ge128.1 hb hpa
                  · simp at h
                | cons d2 r =>
                  by_cases hd2 : d2 < 0x80
                  · have hr3 : validUtf8 r = true := by rwa [validUtf8_cons_ascii hd2] at hr2
                    have e4 := Parser.parseDigit_append (pre := b!"HTTP/" ++ [d] ++ b!".") hd2 hr3
                    simp only [List.cons_append, List.nil_append, List.length_cons, List.length_nil] at e4
                    rw [e4]
                    have hnp : parseU32 [d2] ≠ .panic := by
                      rcases parseU32_one d2 with ⟨n, hn, _⟩ | ⟨⟨e, he⟩, _⟩
                      · rw [hn]; simp
                      · rw [he]; simp
                    have : ¬ ((∃ b rest, d :: 46 :: d2 :: r = b :: rest ∧ 128 ≤ b.toNat) ∨
                        (∃ d' n b rest, d :: 46 :: d2 :: r = d' :: b :: rest ∧ DigitVal 10 d' n ∧ 128 ≤ b.toNat) ∨
                        ∃ d' n b rest, d :: 46 :: d2 :: r = d' :: 46 :: b :: rest ∧ DigitVal 10 d' n ∧ 128 ≤ b.toNat) := by
                      rintro (⟨b, rest, h, hb⟩ | ⟨d', n', b, rest, h, _, hb⟩ | ⟨d', n', b, rest, h, _, hb⟩) <;>
                        simp only [List.cons.injEq] at h
                      · rw [← h.1] at hb; exact ge128.1 hb hd
                      · rw [← h.2.1] at hb; exact ge128.1 hb hpa
                      · rw [← h.2.2.1] at hb; exact ge128.1 hb hd2
                    refine iff_of_false ?_ this
                    cases hx : parseU32 [d2] with
                    | ok => simp
                    | err => simp
                    | panic => exact absurd hx hnp
                  · have := parseDigit_lead (pre := b!"HTTP/" ++ [d] ++ b!".") hr2 hd2
                    simp only [List.cons_append, List.nil_append, List.length_cons, List.length_nil] at this
                    refine iff_of_true ?_ (.inr (.inr ⟨d, n, d2, r, rfl, hdn, ge128.2 hd2⟩))
                    generalize Parser.parseDigit _ = x at this
                    obtain ⟨x, y⟩ := x
                    dsimp only at this
                    rw [this]
              · have := expect1_other (pre := b!"HTTP/" ++ [d]) (e := 46) hr2 hpa hdot
                simp only [List.cons_append, List.nil_append, List.length_cons, List.length_nil] at this
                refine iff_of_false ?_ ?_
                · simp only [List.cons_append, List.nil_append]
                  generalize Parser.expect _ _ = x at this
                  obtain ⟨x, y⟩ := x
                  dsimp only at this
                  rw [this]; simp
                · rintro (⟨b, rest, h, hb⟩ | ⟨d', n', b, rest, h, _, hb⟩ | ⟨d', n', b, rest, h, _, hb⟩) <;>
                    simp only [List.cons.injEq] at h
                  · rw [← h.1] at hb; exact ge128.1 hb hd
                  · rw [← h.2.1] at hb; exact ge128.1 hb hpa
                  · exact hdot h.2.1
            · have := expect1_lead (pre := b!"HTTP/" ++ [d]) (e := 46) hr1 hpa
              simp only [List.cons_append, List.nil_append, List.length_cons, List.length_nil] at this
              refine iff_of_true ?_ (.inr (.inl ⟨d, n, p, r, rfl, hdn, ge128.2 hpa⟩))
              simp only [List.cons_append, List.nil_append]
              generalize Parser.expect _ _ = x at this
              obtain ⟨x, y⟩ := x
              dsimp only at this
              rw [this]
        · rw [he]
          refine iff_of_false (by simp) ?_
          rintro (⟨b, rest, h, hb⟩ | ⟨d', n', b, rest, h, hb, _⟩ | ⟨d', n', b, rest, h, hb, _⟩) <;>
            simp only [List.cons.injEq] at h
          · rw [← h.1] at hb; exact ge128.1 hb hd
          · rw [← h.1] at hb; exact hno _ hb
          · rw [← h.1] at hb; exact hno _ hb
      · have := parseDigit_lead (pre := b!"HTTP/") hr hd
        refine iff_of_true ?_ (.inl ⟨d, r, rfl, ge128.2 hd⟩)
        generalize Parser.parseDigit _ = x at this
        obtain ⟨x, y⟩ := x
        dsimp only at this
        rw [this]
  · have h1 : ¬ ((∃ b rest, v = b!"HTTP/" ++ b :: rest ∧ 128 ≤ b.toNat) ∨
        (∃ d n b rest, v = b!"HTTP/" ++ d :: b :: rest ∧ DigitVal 10 d n ∧ 128 ≤ b.toNat) ∨
        ∃ d n b rest, v = b!"HTTP/" ++ d :: 46 :: b :: rest ∧ DigitVal 10 d n ∧ 128 ≤ b.toNat) := by
      rintro (⟨b, rest, h, _⟩ | ⟨_, _, b, rest, h, _⟩ | ⟨_, _, b, rest, h, _⟩) <;> exact hp ⟨_, h⟩
    rw [or_iff_left h1]
    have hx : HttpVersion.fromStr v = .panic ↔ ((Parser.new v).expect b!"HTTP/").1 = .panic := by
      unfold HttpVersion.fromStr
      rcases hy : (Parser.new v).expect b!"HTTP/" with ⟨y, p⟩
      cases y with
      | ok u =>
        obtain ⟨⟨rest, hr⟩, _⟩ := Parser.expect_ok_inv hy
        exact absurd ⟨rest, hr⟩ hp
      | err => simp
      | panic => simp
    rw [hx]
    unfold Parser.new Parser.expect
    dsimp only
    cases v with
    | nil => simp
    | cons v0 v =>
      rw [if_neg (by simp)]
      by_cases hlen : (v0 :: v).length ≤ 5
      · have hmin : min (v0 :: v).length (0 + (b!"HTTP/").length) = (v0 :: v).length := by
          rw [show (b!"HTTP/").length = 5 by rfl]; omega
        rw [hmin]
        refine iff_of_false ?_ ?_
        · have := sliceFrom_append (pre := []) hv
          simp only [List.nil_append, List.length_nil] at this
          unfold sliceFrom at this
          rw [this]
          dsimp only
          split <;> simp
        · rintro ⟨a, b, rest, h, ha, _⟩
          rw [h] at hlen; simp at hlen; omega
      · have hmin : min (v0 :: v).length (0 + (b!"HTTP/").length) = 5 := by
          rw [show (b!"HTTP/").length = 5 by rfl]; omega
        rw [hmin]
        obtain ⟨x, hx⟩ : ∃ x, (v0 :: v)[5]? = some x := by
          rw [List.getElem?_eq_getElem (by omega)]; exact ⟨_, rfl⟩
        have hb : isCharBoundary (v0 :: v) 5 = !isCont x := by
          unfold isCharBoundary
          rw [hx]; rfl
        unfold slice
        rw [hb, isCharBoundary_zero]
        constructor
        · intro h
          have hc : isCont x = true := by
            cases hcx : isCont x with
            | true => rfl
            | false =>
              rw [hcx, if_pos (by simp; simp at hlen; omega)] at h
              dsimp only at h
              split at h <;> simp at h
          rw [isCont_iff] at hc
          refine ⟨(v0 :: v).take 5, x, (v0 :: v).drop 6, ?_, by simp at hlen ⊢; omega, by omega, by omega⟩
          have hlt : 5 < (v0 :: v).length := by omega
          rw [List.getElem?_eq_getElem hlt] at hx
          simp only [Option.some.injEq] at hx
          rw [← hx]
          rw [List.getElem_cons_drop hlt, List.take_append_drop]
        · rintro ⟨a, b, rest, h, ha, h1, h2⟩
          rw [h, List.getElem?_append_right (by omega), ha] at hx
          simp only [Nat.sub_self, List.getElem?_cons_zero, Option.some.injEq] at hx
          rw [← hx, isCont_iff.2 (by omega)]
          simp

/-! ### Start lines -/

/-- Taking a token, in terms of the pieces. -/
theorem parseToken_parts (pre tok bl rest : Bytes) (hne : tok ++ bl ++ rest ≠ []) (ht : FirstToken (tok ++ bl ++ rest) tok)
    (hb : ∀ b ∈ bl, b = 32 ∨ b = 9) (hr : ¬ StartsBlank rest) (hv : validUtf8 (tok ++ bl ++ rest) = true) :
    Parser.parseToken ⟨pre ++ (tok ++ bl ++ rest), pre.length⟩ =
      (.ok tok, ⟨(pre ++ tok ++ bl) ++ rest, (pre ++ tok ++ bl).length⟩) := by
  have htok := ht.eq_takeWhile
  have hdrop : (tok ++ bl ++ rest).dropWhile (fun b => !Parser.isBlank b) = bl ++ rest := by
    have := List.takeWhile_append_dropWhile (p := fun b => !Parser.isBlank b) (l := tok ++ bl ++ rest)
    rw [← htok, List.append_assoc] at this
    rw [List.append_assoc]
    exact List.append_cancel_left this
  have hbl : (bl ++ rest).takeWhile Parser.isBlank = bl := by
    rw [List.takeWhile_append_of_pos fun b hb' => by rcases hb b hb' with rfl | rfl <;> decide]
    cases rest with
    | nil => simp
    | cons x rest =>
      have : Parser.isBlank x = false := by
        rw [isBlank_false]
        exact ⟨fun h => hr ⟨x, rest, rfl, .inl h⟩, fun h => hr ⟨x, rest, rfl, .inr h⟩⟩
      rw [List.takeWhile_cons, this]; simp
  rw [Parser.parseToken_eq pre _ hne hv, hdrop, hbl, ← htok]
  simp [Nat.add_assoc]

theorem valid_parts {tok bl rest : Bytes} (ht : FirstToken (tok ++ bl ++ rest) tok) (hb : ∀ b ∈ bl, b = 32 ∨ b = 9)
    (hv : validUtf8 (tok ++ bl ++ rest) = true) : validUtf8 tok = true ∧ validUtf8 rest = true := by
  have hdrop : ∀ bl : Bytes, (∀ b ∈ bl, b = 32 ∨ b = 9) → validUtf8 (bl ++ rest) = true → validUtf8 rest = true := by
    intro bl
    induction bl with
    | nil => intro _ h; exact h
    | cons b bl ih =>
      intro hb h
      apply ih fun x hx => hb x (by simp [hx])
      have : b < 0x80 := by rcases hb b (by simp) with rfl | rfl <;> decide
      rw [List.cons_append, validUtf8_cons_ascii this] at h
      exact h
  cases bl with
  | nil =>
    rcases ht.2 with h | ⟨b, r, h, hb'⟩
    · have : rest = [] := by simpa using h
      subst this
      simp only [List.append_nil] at hv
      exact ⟨hv, rfl⟩
    · simp only [List.append_nil, List.append_cancel_left_eq] at h hv
      subst h
      have : b < 0x80 := by rcases hb' with rfl | rfl <;> decide
      have := validUtf8_split this _ _ hv
      exact ⟨this.1, by rw [validUtf8_cons_ascii (by assumption)]; exact this.2⟩
  | cons b bl =>
    have hlt : b < 0x80 := by rcases hb b (by simp) with rfl | rfl <;> decide
    rw [List.append_assoc, List.cons_append] at hv
    have := validUtf8_split hlt _ _ hv
    exact ⟨this.1, hdrop bl (fun x hx => hb x (by simp [hx])) this.2⟩

theorem parseRemaining_post (pre post : Bytes) (h : validUtf8 post = true) :
    (Parser.parseRemaining ⟨pre ++ post, pre.length⟩).1 = .ok post := by
  unfold Parser.parseRemaining
  rw [if_neg (by simp)]
  dsimp only
  rw [sliceFrom_append h]

theorem cutVersion_ne {v : Bytes} (h : CutVersion v) : v ≠ [] := by
  rintro rfl
  rcases h with ⟨a, b, r, h, _⟩ | ⟨b, r, h, _⟩ | ⟨d, n, b, r, h, _⟩ | ⟨d, n, b, r, h, _⟩ <;> simp at h

/-- Exactly which status lines panic. -/
theorem statusLine_panic_iff {line : Bytes} (hv : validUtf8 line = true) :
    parseStatusLine line = .panic ↔ CutStatusLine line := by
  unfold CutStatusLine
  obtain ⟨tok, bl, rest, rfl, ht, hb, hr, -, -⟩ := token_split line
  have hcut : (∃ v, FirstToken (tok ++ bl ++ rest) v ∧ CutVersion v) ↔ CutVersion tok :=
    ⟨fun ⟨v, h1, h2⟩ => by rw [ht.unique h1]; exact h2, fun h => ⟨tok, ht, h⟩⟩
  rw [hcut]
  by_cases hne : tok ++ bl ++ rest = []
  · rw [hne]
    have : tok = [] := by simp at hne; exact hne.1
    subst this
    refine iff_of_false ?_ fun h => cutVersion_ne h rfl
    simp [parseStatusLine, Parser.parseToken, Parser.new]
  · obtain ⟨v1, v2⟩ := valid_parts ht hb hv
    rw [← version_panic_iff v1]
    unfold parseStatusLine Parser.new
    have := parseToken_parts [] tok bl rest hne ht hb hr hv
    simp only [List.nil_append, List.length_nil] at this
    rw [this]
    dsimp only
    cases hver : HttpVersion.fromStr tok with
    | err => simp
    | panic => simp
    | ok ver =>
      dsimp only
      have := parseRemaining_post (tok ++ bl) rest v2
      generalize Parser.parseRemaining _ = x at this
      obtain ⟨x, y⟩ := x
      dsimp only at this
      rw [this]
      dsimp only
      have := C03_status_parse_total rest ((validUtf8_iff _).1 v2)
      cases hs : HttpStatus.fromStr rest with
      | ok => simp
      | err => simp
      | panic => exact absurd hs this

theorem method_iff [CaseMap] (tok : Bytes) (m : HttpMethod) :
    HttpMethod.fromStr tok = .ok m ↔ CaseMap.upper tok = utf8 (methodName m) := by
  rw [methodName_bytes]
  unfold HttpMethod.fromStr
  constructor
  · intro h
    repeat' split at h
    all_goals simp only [Res.ok.injEq, reduceCtorEq] at h
    all_goals subst h; assumption
  · intro h
    rw [h]
    cases m <;> rfl

theorem startsBlank_gap {g : Bytes} (h : Gap g) (rest : Bytes) : ∃ b r, g ++ rest = b :: r ∧ (b = 32 ∨ b = 9) := by
  obtain ⟨h1, h2⟩ := h
  cases g with
  | nil => exact absurd rfl h1
  | cons b g => exact ⟨b, g ++ rest, rfl, h2 b (by simp)⟩

theorem firstToken_gap {w g : Bytes} (hw : ∀ b ∈ w, b ≠ 32 ∧ b ≠ 9) (hg : Gap g) (rest : Bytes) : FirstToken (w ++ g ++ rest) w := by
  refine ⟨hw, .inr ?_⟩
  obtain ⟨b, r, h, hb⟩ := startsBlank_gap hg rest
  exact ⟨b, r, by rw [List.append_assoc, h], hb⟩

theorem not_startsBlank_word {w : Bytes} (hw : Word w) (rest : Bytes) : ¬ StartsBlank (w ++ rest) := by
  obtain ⟨h1, h2⟩ := hw
  cases w with
  | nil => exact absurd rfl h1
  | cons b w =>
    rintro ⟨x, r, h, hx⟩
    simp only [List.cons_append, List.cons.injEq] at h
    have := h2 b (by simp)
    rw [h.1] at this
    rcases hx with rfl | rfl <;> simp at this

/-- A token that is not the end of the text is followed by a gap. -/
theorem gap_of_rest {tok bl rest : Bytes} (ht : FirstToken (tok ++ bl ++ rest) tok) (hb : ∀ b ∈ bl, b = 32 ∨ b = 9)
    (hr : ¬ StartsBlank rest) (hne : rest ≠ []) : Gap bl := by
  refine ⟨?_, hb⟩
  rintro rfl
  rcases ht.2 with h | ⟨b, r, h, hb'⟩
  · simp at h; exact hne h
  · simp only [List.append_nil, List.append_cancel_left_eq] at h
    exact hr ⟨b, r, h, hb'⟩

/-- A request line that is not refused for something else than its version has three words. -/
theorem requestLine_words [CaseMap] {line : Bytes} (hv : validUtf8 line = true) (h : ∀ e, parseRequestLine line ≠ .err e) :
    ∃ m target v, RequestWords line m target v := by
  unfold parseRequestLine Parser.new at h
  obtain ⟨tok, g1, l2, rfl, ht, hb, hr, -, -⟩ := token_split line
  by_cases hne : tok ++ g1 ++ l2 = []
  · rw [hne] at h; simp [Parser.parseToken] at h
  obtain ⟨v1, v2⟩ := valid_parts ht hb hv
  have e1 := parseToken_parts [] tok g1 l2 hne ht hb hr hv
  simp only [List.nil_append, List.length_nil] at e1
  rw [e1] at h
  dsimp only at h
  cases hm : HttpMethod.fromStr tok with
  | err => rw [hm] at h; simp at h
  | panic => exact absurd hm (HttpMethod.fromStr_ne_panic _)
  | ok m =>
    rw [hm] at h
    dsimp only at h
    obtain ⟨target, g2, l3, rfl, ht2, hb2, hr2, -, -⟩ := token_split l2
    by_cases hne2 : target ++ g2 ++ l3 = []
    · rw [hne2, List.append_nil, Parser.parseToken_nil] at h; simp at h
    obtain ⟨v3, v4⟩ := valid_parts ht2 hb2 v2
    rw [parseToken_parts (tok ++ g1) target g2 l3 hne2 ht2 hb2 hr2 v2] at h
    dsimp only at h
    obtain ⟨v, bl, l4, rfl, ht3, hb3, hr3, -, -⟩ := token_split l3
    by_cases hne3 : v ++ bl ++ l4 = []
    · rw [hne3, List.append_nil, Parser.parseToken_nil] at h; simp at h
    have hup := (method_iff tok m).1 hm
    have hg1 := gap_of_rest ht hb hr hne2
    have hg2 := gap_of_rest ht2 hb2 hr2 hne3
    refine ⟨m, target, v, tok, g1, g2, v ++ bl ++ l4, by simp, ⟨?_, ht.1⟩, hg1, ⟨?_, ht2.1⟩, hg2, hup, ht3, ?_⟩
    · rintro rfl
      rw [CaseMap.upper_ascii _ (by decide), methodName_bytes] at hup
      cases m <;> simp [HttpMethod.display] at hup
    · rintro rfl
      obtain ⟨b, r, hbr, hx⟩ := startsBlank_gap hg2 (v ++ bl ++ l4)
      exact hr ⟨b, r, by rw [List.nil_append]; exact hbr, hx⟩
    · rintro rfl
      apply hr2
      rcases ht3.2 with h | ⟨b, r, h, hb'⟩
      · exact absurd h hne3
      · exact ⟨b, r, by simpa using h, hb'⟩

/-- The outcome of a request line of three words is decided by its version. -/
theorem requestLine_outcome [CaseMap] {line : Bytes} {m : HttpMethod} {target v : Bytes} (hv : validUtf8 line = true)
    (h : RequestWords line m target v) :
    validUtf8 v = true ∧ parseRequestLine line = (HttpVersion.fromStr v).map fun ver => (m, target, ver) := by
  obtain ⟨tok, g1, g2, l3, rfl, hw1, hg1, hw2, hg2, hup, ht3, hvne⟩ := h
  obtain ⟨v', bl, l4, rfl, ht3', hb3, hr3, -, -⟩ := token_split l3
  have := ht3'.unique ht3
  subst this
  have hvw : Word v' := ⟨hvne, ht3.1⟩
  have hne3 : v' ++ bl ++ l4 ≠ [] := by simp [hvw.1]
  have hne2 : target ++ g2 ++ (v' ++ bl ++ l4) ≠ [] := by simp [hw2.1]
  have hne1 : tok ++ g1 ++ (target ++ g2 ++ (v' ++ bl ++ l4)) ≠ [] := by simp [hw1.1]
  have ht1 := firstToken_gap hw1.2 hg1 (target ++ g2 ++ (v' ++ bl ++ l4))
  have ht2 := firstToken_gap hw2.2 hg2 (v' ++ bl ++ l4)
  have hline : tok ++ g1 ++ target ++ g2 ++ (v' ++ bl ++ l4) = tok ++ g1 ++ (target ++ g2 ++ (v' ++ bl ++ l4)) := by simp
  rw [hline] at hv ⊢
  obtain ⟨v1, v2⟩ := valid_parts ht1 hg1.2 hv
  obtain ⟨v3, v4⟩ := valid_parts ht2 hg2.2 v2
  obtain ⟨v5, v6⟩ := valid_parts ht3' hb3 v4
  have hs2 : ¬ StartsBlank (target ++ g2 ++ (v' ++ bl ++ l4)) := by
    rw [List.append_assoc]; exact not_startsBlank_word hw2 _
  have hs3 : ¬ StartsBlank (v' ++ bl ++ l4) := by
    rw [List.append_assoc]; exact not_startsBlank_word hvw _
  refine ⟨v5, ?_⟩
  unfold parseRequestLine Parser.new
  have e1 := parseToken_parts [] tok g1 _ hne1 ht1 hg1.2 hs2 hv
  simp only [List.nil_append, List.length_nil] at e1
  rw [e1]
  dsimp only
  rw [(method_iff tok m).2 hup]
  dsimp only
  rw [parseToken_parts (tok ++ g1) target g2 _ hne2 ht2 hg2.2 hs3 v2]
  dsimp only
  rw [parseToken_parts (tok ++ g1 ++ target ++ g2) v' bl l4 hne3 ht3' hb3 hr3 v4]
  dsimp only
  cases HttpVersion.fromStr v' <;> rfl

/-- Exactly which request lines panic. -/
theorem requestLine_panic_iff [CaseMap] {line : Bytes} (hv : validUtf8 line = true) :
    parseRequestLine line = .panic ↔ CutRequestLine line := by
  constructor
  · intro h
    obtain ⟨m, target, v, hw⟩ := requestLine_words hv (by simp [h])
    obtain ⟨h1, h2⟩ := requestLine_outcome hv hw
    refine ⟨m, target, v, hw, (version_panic_iff h1).1 ?_⟩
    rw [h] at h2
    cases hx : HttpVersion.fromStr v with
    | ok => rw [hx] at h2; simp [Res.map] at h2
    | err => rw [hx] at h2; simp [Res.map] at h2
    | panic => rfl
  · rintro ⟨m, target, v, hw, hcut⟩
    obtain ⟨h1, h2⟩ := requestLine_outcome hv hw
    rw [h2, (version_panic_iff h1).2 hcut]; rfl

theorem versionText_iff {v : Bytes} (hv : validUtf8 v = true) (ver : HttpVersion) :
    HttpVersion.fromStr v = .ok ver ↔ VersionText v ver.major ver.minor := by
  rw [C06_version_parse v ((validUtf8_iff v).1 hv) ver]
  unfold VersionText
  rw [httpSlash]

/-- Exactly which request lines are accepted. -/
theorem requestLine_ok_iff [CaseMap] {line : Bytes} (hv : validUtf8 line = true) (m : HttpMethod) (target : Bytes) (ver : HttpVersion) :
    parseRequestLine line = .ok (m, target, ver) ↔ RequestLine line m target ver.major ver.minor := by
  constructor
  · intro h
    obtain ⟨m', target', v, hw⟩ := requestLine_words hv (by simp [h])
    obtain ⟨h1, h2⟩ := requestLine_outcome hv hw
    rw [h] at h2
    cases hx : HttpVersion.fromStr v with
    | err => rw [hx] at h2; simp [Res.map] at h2
    | panic => rw [hx] at h2; simp [Res.map] at h2
    | ok ver' =>
      rw [hx] at h2
      simp only [Res.map, Res.ok.injEq, Prod.mk.injEq] at h2
      obtain ⟨rfl, rfl, rfl⟩ := h2
      exact ⟨v, hw, (versionText_iff h1 ver).1 hx⟩
  · rintro ⟨v, hw, hver⟩
    obtain ⟨h1, h2⟩ := requestLine_outcome hv hw
    rw [h2, (versionText_iff h1 ver).2 hver]; rfl

/-- Exactly which status lines are accepted. -/
theorem statusLine_ok_iff {line : Bytes} (hv : validUtf8 line = true) (ver : HttpVersion) (st : HttpStatus) :
    parseStatusLine line = .ok (ver, st) ↔
      ∃ code, StatusLine line ver.major ver.minor code ∧ st = HttpStatus.fromCode (UInt32.ofNat code) := by
  have hout : ∀ tok bl rest : Bytes, line = tok ++ bl ++ rest → FirstToken line tok → (∀ b ∈ bl, b = 32 ∨ b = 9) →
      ¬ StartsBlank rest → line ≠ [] → (parseStatusLine line = .ok (ver, st) ↔
        HttpVersion.fromStr tok = .ok ver ∧ HttpStatus.fromStr rest = .ok st) := by
    rintro tok bl rest rfl ht hb hr hne
    obtain ⟨v1, v2⟩ := valid_parts ht hb hv
    unfold parseStatusLine Parser.new
    have := parseToken_parts [] tok bl rest hne ht hb hr hv
    simp only [List.nil_append, List.length_nil] at this
    rw [this]
    dsimp only
    cases hver : HttpVersion.fromStr tok with
    | err => simp
    | panic => simp
    | ok ver' =>
      dsimp only
      have := parseRemaining_post (tok ++ bl) rest v2
      generalize Parser.parseRemaining _ = x at this
      obtain ⟨x, y⟩ := x
      dsimp only at this
      rw [this]
      dsimp only
      cases hs : HttpStatus.fromStr rest <;> simp
  constructor
  · intro h
    obtain ⟨tok, bl, rest, hl, ht, hb, hr, -, -⟩ := token_split line
    have hne : line ≠ [] := by
      rintro rfl
      simp [parseStatusLine, Parser.parseToken, Parser.new] at h
    obtain ⟨h1, h2⟩ := (hout tok bl rest hl ht hb hr hne).1 h
    obtain ⟨v1, v2⟩ := valid_parts (by rw [← hl]; exact ht) hb (by rw [← hl]; exact hv)
    obtain ⟨t, n, k1, k2, k3, k4⟩ := (C03_status_parse rest ((validUtf8_iff _).1 v2) st).1 h2
    refine ⟨n, ⟨tok, bl, rest, t, hl, ht, gap_of_rest (by rw [← hl]; exact ht) hb hr ?_, hr, (versionText_iff v1 ver).1 h1, k1, k2, k3⟩, k4⟩
    rintro rfl
    simp [HttpStatus.fromStr, Parser.parseNumber, Parser.new, Parser.parseToken] at h2
  · rintro ⟨n, ⟨v, g, rest, t, hl, ht, hg, hr, hver, k1, k2, k3⟩, k4⟩
    obtain ⟨v1, v2⟩ := valid_parts (by rw [← hl]; exact ht) hg.2 (by rw [← hl]; exact hv)
    have hne : line ≠ [] := by
      rw [hl]
      have := hg.1
      simp [this]
    exact (hout v g rest hl ht hg.2 hr hne).2 ⟨(versionText_iff v1 ver).2 hver,
      (C03_status_parse rest ((validUtf8_iff _).1 v2) st).2 ⟨t, n, k1, k2, k3, k4⟩⟩

/-! ### Header blocks -/

section
variable {σ : Type} [LawfulReader σ]

omit [LawfulReader σ] in
theorem delivers_none {c : Cfg} {t t' : List Ev} (h : Delivers c t [] t') : t = t' := by cases h; rfl

omit [LawfulReader σ] in
/-- A transport delivers one line next. -/
theorem line_unique {c : Cfg} {t t1 t2 : List Ev} {l n : Bytes} (hl : RawLine l) (h1 : Delivers c t (l ++ [13, 10]) t1)
    (hn : RawLine n) (h2 : Delivers c t (n ++ [13, 10]) t2) : l = n := by
  have e1 := innerNextT_line hl.2.1 h1
  have e2 := innerNextT_line hn.2.1 h2
  rw [e1] at e2
  simp only [Prod.mk.injEq] at e2
  have ho : ∀ l, RawLine l → lineOutcome l = .ok (some l) := by
    intro l hl
    unfold lineOutcome
    rw [if_neg (by simp [hl.1]), if_pos ((validUtf8_iff l).2 hl.2.2)]
  rw [ho l hl, ho n hn] at e2
  simpa using e2.1

/-- What gathering the rest of a line does. -/
theorem gather_parts {c : Cfg} {line line' : Bytes} {item : Option (Except Err Bytes)} {s s' : σ}
    (h : HttpHeaders.gather c line s = (line', item, s')) :
    ∃ (conts : List Bytes) (t : List Ev), (∀ l ∈ conts, RawLine l ∧ StartsBlank l) ∧ line' = line ++ conts.flatten ∧
      Delivers c (trace s) (conts.flatMap (· ++ [13, 10])) t ∧ LineOver c t ∧
      ∀ n, item = some (.ok n) → RawLine n ∧ ¬ StartsBlank n ∧ Delivers c t (n ++ [13, 10]) (trace s') := by
  fun_induction HttpHeaders.gather c line s with
  | case1 line s next s1 hc hb ih =>
    obtain ⟨hr, hd⟩ := crlfNext_ok_inv hc
    obtain ⟨conts, t, h1, h2, h3, h4, h5⟩ := ih h
    refine ⟨next :: conts, t, ?_, by rw [h2]; simp, ?_, h4, h5⟩
    · intro l hl
      simp only [List.mem_cons] at hl
      rcases hl with rfl | hl
      · exact ⟨hr, (startsBlank_iff _).1 hb⟩
      · exact h1 l hl
    · rw [List.flatMap_cons]; exact hd.append h3
  | case2 line s next s1 hc hb =>
    obtain ⟨hr, hd⟩ := crlfNext_ok_inv hc
    simp only [Prod.mk.injEq] at h
    obtain ⟨rfl, rfl, rfl⟩ := h
    refine ⟨[], trace s, by simp, by simp, .nil _, ?_, ?_⟩
    · intro l t' hl hdl
      obtain ⟨s2, h1, _⟩ := crlfNext_line hl hdl
      rw [hc] at h1
      simp only [Prod.mk.injEq, Option.some.injEq, Except.ok.injEq] at h1
      rw [← h1.1, ← startsBlank_iff]; exact hb
    · intro n hn
      simp only [Option.some.injEq, Except.ok.injEq] at hn
      subst hn
      exact ⟨hr, by rw [← startsBlank_iff]; exact hb, hd⟩
  | case3 line s item1 s1 hno hc =>
    simp only [Prod.mk.injEq] at h
    obtain ⟨rfl, rfl, rfl⟩ := h
    refine ⟨[], trace s, by simp, by simp, .nil _, ?_, fun n hn => absurd hn (hno n)⟩
    intro l t' hl hdl
    obtain ⟨s2, h1, _⟩ := crlfNext_line hl hdl
    rw [hc] at h1
    simp only [Prod.mk.injEq] at h1
    exact absurd h1.1 (hno l)

/-- Gathering the lines that are there. -/
theorem gather_conts {c : Cfg} {conts : List Bytes} {t : List Ev} (line : Bytes) {s : σ}
    (hconts : ∀ l ∈ conts, RawLine l ∧ StartsBlank l) (hd : Delivers c (trace s) (conts.flatMap (· ++ [13, 10])) t)
    (ho : LineOver c t) :
    ∃ s0, trace s0 = t ∧
      HttpHeaders.gather c line s = (line ++ conts.flatten, (crlfNext c s0).1, (crlfNext c s0).2) := by
  induction conts generalizing line s with
  | nil =>
    have ht : trace s = t := by
      simp only [List.flatMap_nil] at hd
      exact delivers_none hd
    refine ⟨s, ht, ?_⟩
    unfold HttpHeaders.gather
    split
    · rename_i next s' heq
      obtain ⟨hr, hdl⟩ := crlfNext_ok_inv heq
      rw [ht] at hdl
      have := ho _ _ hr hdl
      rw [← startsBlank_iff] at this
      rw [if_neg this, heq]; simp
    · rename_i heq; rw [heq]; simp
  | cons a conts ih =>
    rw [List.flatMap_cons] at hd
    obtain ⟨m, hm1, hm2⟩ := hd.split
    obtain ⟨s1, h1, h2⟩ := crlfNext_line (hconts a (by simp)).1 hm1
    obtain ⟨s0, h3, h4⟩ := ih (line ++ a) (s := s1) (fun l hl => hconts l (by simp [hl])) (by rw [h2]; exact hm2)
    refine ⟨s0, h3, ?_⟩
    unfold HttpHeaders.gather
    split
    · rename_i heq; rw [h1] at heq
      simp only [Prod.mk.injEq, Option.some.injEq, Except.ok.injEq] at heq
      rw [← heq.1, if_pos ((startsBlank_iff a).2 (hconts a (by simp)).2), ← heq.2, h4]
      simp
    · rename_i hno heq; rw [h1] at heq; simp only [Prod.mk.injEq] at heq
      exact absurd heq.1.symm (hno a)

variable [CaseMap]

theorem isText_flatten {l : Bytes} {conts : List Bytes} (hl : IsText l) (h : ∀ x ∈ conts, IsText x) :
    IsText (l ++ conts.flatten) := by
  induction conts generalizing l with
  | nil => simpa using hl
  | cons a conts ih =>
    have := ih (l := l ++ a) (isText_append hl (h a (by simp))) fun x hx => h x (by simp [hx])
    simpa using this

theorem loop_panics {c : Cfg} {item : Option (Except Err Bytes)} {acc : List HttpHeader} {s : σ}
    (h : (HttpHeaders.deserializeLoop c item acc s).1 = .panic) (hit : ∀ l, item = some (.ok l) → RawLine l) :
    ∃ first tl good bad t', item = some (.ok first) ∧ (∀ l ∈ tl, RawLine l) ∧
      Delivers c (trace s) (tl.flatMap (· ++ [13, 10])) t' ∧ LineOver c t' ∧
      Folded (first :: tl) (good ++ [bad]) ∧ (∀ l ∈ good, ∃ k v, HeaderLine l k v) ∧ CutHeader bad := by
  fun_induction HttpHeaders.deserializeLoop c item acc s with
  | case1 acc s => simp at h
  | case2 acc s e => simp at h
  | case3 acc s line line' item' s1 hg hd hdes ih =>
    obtain ⟨conts, t, h1, h2, h3, h4, h5⟩ := gather_parts hg
    obtain ⟨first, tl, good, bad, t', i1, i2, i3, i4, i5, i6, i7⟩ := ih h fun l hl => (h5 l hl).1
    obtain ⟨j1, j2, j3⟩ := h5 first i1
    have hl := hit line rfl
    have htext : IsText line' := by rw [h2]; exact isText_flatten hl.2.2 fun x hx => (h1 x hx).1.2.2
    obtain ⟨k, v, hkv, _⟩ := (HttpHeader.deserialize_iff ((validUtf8_iff _).2 htext) hd).1 hdes
    refine ⟨line, conts ++ first :: tl, line' :: good, bad, t', rfl, ?_, ?_, i4, ?_, ?_, i7⟩
    · intro l hl
      simp only [List.mem_append, List.mem_cons] at hl
      rcases hl with hl | rfl | hl
      · exact (h1 l hl).1
      · exact j1
      · exact i2 l hl
    · rw [List.flatMap_append, List.flatMap_cons]
      exact h3.append (j3.append i3)
    · rw [h2]
      refine .line (fun l hl => (h1 l hl).2) ?_ i5
      intro l hl
      simp only [List.head?_cons, Option.some.injEq] at hl
      rw [← hl]; exact j2
    · intro l hl
      simp only [List.mem_cons] at hl
      rcases hl with rfl | hl
      · exact ⟨k, v, hkv⟩
      · exact i6 l hl
  | case4 acc s line line' item' s1 hg e hdes => simp at h
  | case5 acc s line line' item' s1 hg hdes =>
    obtain ⟨conts, t, h1, h2, h3, h4, h5⟩ := gather_parts hg
    have hl := hit line rfl
    have htext : IsText line' := by rw [h2]; exact isText_flatten hl.2.2 fun x hx => (h1 x hx).1.2.2
    refine ⟨line, conts, [], line', t, rfl, fun l hl => (h1 l hl).1, h3, h4, ?_, by simp,
      (HttpHeader.deserialize_panic_iff ((validUtf8_iff _).2 htext)).1 hdes⟩
    rw [h2]
    have := Folded.line (first := line) (conts := conts) (rest := []) (fun l hl => (h1 l hl).2) (by simp) .nil
    simpa using this

theorem loop_cut {c : Cfg} {raw logical : List Bytes} (hf : Folded raw logical) :
    ∀ {good : List Bytes} {bad : Bytes} {s : σ} {t' : List Ev} (acc : List HttpHeader), logical = good ++ [bad] →
    (∀ l ∈ raw, RawLine l) → (∀ l tl, raw = l :: tl → Delivers c (trace s) (tl.flatMap (· ++ [13, 10])) t') →
    LineOver c t' → (∀ l ∈ good, ∃ k v, HeaderLine l k v) → CutHeader bad →
    (HttpHeaders.deserializeLoop c (raw.head?.map .ok) acc s).1 = .panic := by
  induction hf with
  | nil => intro good bad s t' acc h; simp at h
  | @line first conts rest logical hconts hrest hf ih =>
    intro good bad s t' acc hlog hraw hd ho hgood hbad
    have hd' := hd first (conts ++ rest) rfl
    have htext : IsText (first ++ conts.flatten) :=
      isText_flatten (hraw first (by simp)).2.2 fun x hx => (hraw x (by simp [hx])).2.2
    have hvt := (validUtf8_iff _).2 htext
    have hc : ∀ l ∈ conts, RawLine l ∧ StartsBlank l := fun l hl => ⟨hraw l (by simp [hl]), hconts l hl⟩
    rw [List.flatMap_append] at hd'
    obtain ⟨m, hm1, hm2⟩ := hd'.split
    have hover : LineOver c m := by
      cases rest with
      | nil =>
        simp only [List.flatMap_nil] at hm2
        rw [delivers_none hm2]; exact ho
      | cons n rest =>
        rw [List.flatMap_cons] at hm2
        obtain ⟨m2, hk1, hk2⟩ := hm2.split
        intro l t2 hl hdl
        rw [line_unique hl hdl (hraw n (by simp)) hk1]
        exact hrest n rfl
    obtain ⟨s0, h3, h4⟩ := gather_conts first hc hm1 hover
    simp only [List.head?_cons, Option.map_some]
    unfold HttpHeaders.deserializeLoop
    simp only [h4]
    cases good with
    | nil =>
      simp only [List.nil_append, List.cons.injEq] at hlog
      rw [hlog.1, (HttpHeader.deserialize_panic_iff (by rw [← hlog.1]; exact hvt)).2 hbad]
    | cons g good =>
      simp only [List.cons_append, List.cons.injEq] at hlog
      obtain ⟨hg, hlog⟩ := hlog
      obtain ⟨k, v, hkv⟩ := hgood g (by simp)
      rw [hg, (HttpHeader.deserialize_iff (by rw [← hg]; exact hvt) ⟨CaseMap.lower k, v⟩).2 ⟨k, v, hkv, rfl⟩]
      dsimp only
      cases rest with
      | nil =>
        cases hf
        simp at hlog
      | cons n rest =>
        rw [List.flatMap_cons] at hm2
        obtain ⟨m2, hk1, hk2⟩ := hm2.split
        obtain ⟨s2, h5, h6⟩ := crlfNext_line (s := s0) (hraw n (by simp)) (by rw [h3]; exact hk1)
        rw [h5]
        have := ih (s := s2) (t' := t') (acc ++ [⟨CaseMap.lower k, v⟩]) hlog (fun l hl => hraw l (by simp at hl ⊢; exact .inr (.inr hl)))
          (by rintro l tl he; simp only [List.cons.injEq] at he; rw [← he.2, h6]; exact hk2) ho
          (fun l hl => hgood l (by simp [hl])) hbad
        exact this

/-- Exactly which streams panic the parser of headers. -/
theorem headers_panic_iff (c : Cfg) (s : σ) : (HttpHeaders.deserialize c s).1 = .panic ↔ CutHeaders c (trace s) := by
  have hde : (HttpHeaders.deserialize c s).1 = .panic ↔
      (HttpHeaders.deserializeLoop c (crlfNext c s).1 [] (crlfNext c s).2).1 = .panic := by
    unfold HttpHeaders.deserialize
    rcases crlfNext c s with ⟨item, s1⟩
    dsimp only
    rcases HttpHeaders.deserializeLoop c item [] s1 with ⟨r | e | _, s2⟩ <;> simp
  rw [hde]
  constructor
  · intro h
    obtain ⟨first, tl, good, bad, t', h1, h2, h3, h4, h5, h6, h7⟩ := loop_panics h fun l hl => by
      rcases hx : crlfNext c s with ⟨item, s1⟩
      rw [hx] at hl
      dsimp only at hl
      subst hl
      exact (crlfNext_ok_inv hx).1
    rcases hx : crlfNext c s with ⟨item, s1⟩
    rw [hx] at h1 h3
    dsimp only at h1 h3
    subst h1
    obtain ⟨hr, hd⟩ := crlfNext_ok_inv hx
    refine ⟨first :: tl, good, bad, t', ?_, ?_, h4, h5, h6, h7⟩
    · intro l hl
      simp only [List.mem_cons] at hl
      rcases hl with rfl | hl
      · exact hr
      · exact h2 l hl
    · rw [List.flatMap_cons]; exact hd.append h3
  · rintro ⟨raw, good, bad, t', h1, h2, h3, h4, h5, h6⟩
    cases raw with
    | nil => generalize hx : good ++ [bad] = x at h4; cases h4; simp at hx
    | cons first tl =>
      rw [List.flatMap_cons] at h2
      obtain ⟨m, hm1, hm2⟩ := h2.split
      obtain ⟨s1, k1, k2⟩ := crlfNext_line (h1 first (by simp)) hm1
      rw [k1]
      exact loop_cut h4 [] rfl h1 (by rintro l tl' he; simp only [List.cons.injEq] at he; rw [← he.2, k2]; exact hm2) h3 h5 h6

/-- Exactly which streams panic the parser of heads, given which start lines do. -/
theorem parseHead_panic_iff {α : Type} (c : Cfg) (start : Bytes → Res α) (s : σ) :
    (parseHead c start s).1 = .panic ↔
      ∃ line t, RawLine line ∧ Delivers c (trace s) (line ++ [13, 10]) t ∧
        (start line = .panic ∨ (∃ a, start line = .ok a) ∧ CutHeaders c t) := by
  constructor
  · intro h
    unfold parseHead at h
    rcases h1 : expectNext c s with ⟨r1, s1⟩
    rw [h1] at h
    cases r1 with
    | error e => simp at h
    | ok line =>
      obtain ⟨hr, hd⟩ := expectNext_ok_inv h1
      refine ⟨line, _, hr, hd, ?_⟩
      dsimp only at h
      cases hst : start line with
      | err e => rw [hst] at h; simp at h
      | panic => exact .inl rfl
      | ok a =>
        rw [hst] at h
        dsimp only at h
        refine .inr ⟨⟨a, rfl⟩, ?_⟩
        rw [← headers_panic_iff]
        rcases h2 : HttpHeaders.deserialize c s1 with ⟨q, s2⟩
        rw [h2] at h
        cases q with
        | err e => simp at h
        | panic => rfl
        | ok hs =>
          dsimp only at h
          cases hcl : contentLengthOf hs with
          | err e => rw [hcl] at h; simp at h
          | panic => exact absurd hcl (contentLengthOf_ne_panic hs)
          | ok n => rw [hcl] at h; simp at h
  · rintro ⟨line, t, hr, hd, hx⟩
    obtain ⟨s1, h1, h2⟩ := expectNext_line hr hd
    unfold parseHead
    rw [h1]
    dsimp only
    rcases hx with hx | ⟨⟨a, ha⟩, hx⟩
    · rw [hx]
    · rw [ha]
      dsimp only
      rw [← h2, ← headers_panic_iff] at hx
      rcases h3 : HttpHeaders.deserialize c s1 with ⟨q, s2⟩
      rw [h3] at hx
      dsimp only at hx
      rw [hx]

end

end HttpIo
