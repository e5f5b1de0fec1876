import Verif.Spec.ErrorText
import Verif.Lemmas.ErrorText
import Verif.Lemmas.Num

/-! Every text of an error is one of the listed ones, and how ASCII text is quoted. -/

namespace HttpIo
open Spec

theorem Parser.consumeWhitespace_s (p : Parser) : p.consumeWhitespace.2.s = p.s := by
  fun_induction Parser.consumeWhitespace p with
  | case1 p hp remaining hs hb ih => exact ih
  | _ => rfl

theorem infix_slice (s : Bytes) (a n : Nat) : (s.drop a).take n <:+: s :=
  (List.take_prefix _ _).isInfix.trans (List.drop_suffix _ _).isInfix

theorem sliceFrom_infix {s r : Bytes} {a : Nat} (h : sliceFrom s a = .ok r) : r = s.drop a := by
  unfold sliceFrom slice at h
  split at h
  · simp only [Res.ok.injEq] at h
    rw [← h, List.take_of_length_le (by simp)]
  · simp at h

/-- A token is a piece of the text, and the text stays. -/
theorem Parser.parseToken_infix {p p' : Parser} {tok : Bytes} (h : p.parseToken = (.ok tok, p')) :
    tok <:+: p.s ∧ p'.s = p.s ∧ (p.position = 0 → FirstToken p.s tok) := by
  unfold Parser.parseToken at h
  by_cases hp : p.position ≥ p.s.length
  · rw [if_pos hp] at h; simp at h
  · rw [if_neg hp] at h
    cases hs : sliceFrom p.s p.position with
    | ok a =>
      rw [hs] at h
      dsimp only at h
      have ha := sliceFrom_infix hs
      have hk := Parser.consumeWhitespace_s ⟨p.s, p.position + (a.takeWhile (fun b => !isBlank b)).length⟩
      rcases hc : Parser.consumeWhitespace ⟨p.s, p.position + (a.takeWhile (fun b => !isBlank b)).length⟩ with ⟨r, p''⟩
      rw [hc] at h hk
      cases r with
      | ok u =>
        simp only [Prod.mk.injEq, Res.ok.injEq] at h
        obtain ⟨rfl, rfl⟩ := h
        refine ⟨?_, hk, ?_⟩
        · exact (List.takeWhile_prefix _).isInfix.trans (by rw [ha]; exact (List.drop_suffix _ _).isInfix)
        · intro h0
          rw [h0, List.drop_zero] at ha
          rw [ha]
          exact takeWhile_firstToken p.s
      | err e' => simp at h
      | panic => simp at h
    | err e' => exact absurd hs sliceFrom_ne_err
    | panic => rw [hs] at h; simp at h

theorem Parser.expect_s (p : Parser) (x : Bytes) : (p.expect x).2.s = p.s := by
  unfold Parser.expect
  split
  · rfl
  · split
    · split <;> rfl
    · rfl
    · rfl

theorem Parser.parseDigit_s (p : Parser) : p.parseDigit.2.s = p.s := by
  unfold Parser.parseDigit
  split
  · rfl
  · split <;> rfl

section
variable {up : Bytes → Bytes} {line : Bytes} {logical : List Bytes}

theorem digitSaid_complaint (p : Parser) : Complaint up line logical p.digitSaid := by
  unfold Parser.digitSaid
  split
  · rw [show b!"Expected digit" = utf8 "Expected digit" by decide +kernel]; exact .missing (by simp)
  · exact .number _

theorem tokenSaid_complaint : Complaint up line logical tokenSaid := by
  unfold tokenSaid
  rw [show b!"Expected token" = utf8 "Expected token" by decide +kernel]
  exact .missing (by simp)

theorem versionSaid_complaint {tok : Bytes} {said : Said} (hi : tok <:+: line) (h : versionSaid tok = some said) :
    Complaint up line logical said := by
  unfold versionSaid at h
  have s1 := Parser.expect_s (Parser.new tok) b!"HTTP/"
  rcases h1 : (Parser.new tok).expect b!"HTTP/" with ⟨_ | e' | _, p1⟩ <;> rw [h1] at h s1 <;> dsimp only at h s1
  · have s2 := Parser.parseDigit_s p1
    rcases h2 : p1.parseDigit with ⟨_ | e' | _, p2⟩ <;> rw [h2] at h s2 <;> dsimp only at h s2
    · rcases h3 : p2.expect b!"." with ⟨_ | e' | _, p3⟩ <;> rw [h3] at h <;> dsimp only at h
      · rcases h4 : p3.parseDigit with ⟨_ | e' | _, p4⟩ <;> rw [h4] at h <;> dsimp only at h
        · simp at h
        · cases h; exact digitSaid_complaint _
        · simp at h
      · cases h
        unfold Parser.expectSaid
        split
        · rw [show b!"Expected " ++ b!"." = utf8 "Expected ." by decide +kernel]; exact .missing (by simp)
        · rw [show b!"Expected '" ++ b!"." ++ b!"', got '" = utf8 "Expected '.', got '" by decide +kernel,
            show b!"'" = utf8 "'" by decide +kernel]
          refine .dot ((infix_slice _ _ _).trans ?_) (by simp; omega)
          rw [s2, s1]; exact hi
      · simp at h
    · cases h; exact digitSaid_complaint _
    · simp at h
  · cases h
    unfold Parser.expectSaid
    split
    · rw [show b!"Expected " ++ b!"HTTP/" = utf8 "Expected HTTP/" by decide +kernel]; exact .missing (by simp)
    · rw [show b!"Expected '" ++ b!"HTTP/" ++ b!"', got '" = utf8 "Expected 'HTTP/', got '" by decide +kernel,
        show b!"'" = utf8 "'" by decide +kernel]
      exact .version ((infix_slice _ _ _).trans hi) (by simp; omega)
  · simp at h

variable [CaseMap]

theorem requestLineSaid_complaint {said : Said} (h : requestLineSaid line = some said) :
    Complaint CaseMap.upper line logical said := by
  unfold requestLineSaid at h
  rcases h1 : (Parser.new line).parseToken with ⟨tok | e' | _, p1⟩ <;> rw [h1] at h <;> dsimp only at h
  · obtain ⟨i1, s1, f1⟩ := Parser.parseToken_infix h1
    rcases h2 : HttpMethod.fromStr tok with m | e' | _ <;> rw [h2] at h <;> dsimp only at h
    · rcases h3 : p1.parseToken with ⟨uri | e' | _, p2⟩ <;> rw [h3] at h <;> dsimp only at h
      · obtain ⟨i2, s2, f2⟩ := Parser.parseToken_infix h3
        rcases h4 : p2.parseToken with ⟨tok3 | e' | _, p3⟩ <;> rw [h4] at h <;> dsimp only at h
        · obtain ⟨i3, _, _⟩ := Parser.parseToken_infix h4
          rw [s2, s1] at i3
          exact versionSaid_complaint i3 h
        · cases h; exact tokenSaid_complaint
        · simp at h
      · cases h; exact tokenSaid_complaint
      · simp at h
    · cases h
      rw [show b!"Unknown method " = utf8 "Unknown method " by decide +kernel]
      exact .method (f1 rfl)
    · simp at h
  · cases h; exact tokenSaid_complaint
  · simp at h

omit [CaseMap] in
theorem parseUntil_no_colon {s : Bytes} {e : Err} {p : Parser} (h : (Parser.new s).parseUntil b!":" = (.err e, p)) :
    (58 : UInt8) ∉ s := by
  intro hm
  obtain ⟨k, rest, rfl, hk⟩ := List.eq_append_cons_of_mem hm
  unfold Parser.parseUntil Parser.new at h
  rw [if_neg (by simp)] at h
  dsimp only at h
  cases hs : sliceFrom (k ++ 58 :: rest) 0 with
  | ok a =>
    rw [hs] at h
    have ha := sliceFrom_infix hs
    rw [List.drop_zero] at ha
    subst ha
    dsimp only at h
    rw [findSub_colon hk] at h
    simp at h
  | err e' => exact absurd hs sliceFrom_ne_err
  | panic => rw [hs] at h; simp at h

omit [CaseMap] in
theorem Parser.parseUntil_s (p : Parser) (x : Bytes) : (p.parseUntil x).2.s = p.s := by
  unfold Parser.parseUntil
  split
  · rfl
  · split
    · split <;> rfl
    · rfl
    · rfl

omit [CaseMap] in
theorem headerSaid_complaint {l : Bytes} {said : Said} (hl : l ∈ logical) (h : headerSaid l = some said) :
    Complaint up line logical said := by
  unfold headerSaid at h
  have s1 := Parser.parseUntil_s (Parser.new l) b!":"
  rcases h1 : (Parser.new l).parseUntil b!":" with ⟨key | e' | _, p1⟩ <;> rw [h1] at h s1 <;> dsimp only at h s1
  · rcases h2 : p1.expect b!": " with ⟨_ | e' | _, p2⟩ <;> rw [h2] at h <;> dsimp only at h
    · rcases h3 : p2.parseRemaining with ⟨_ | e' | _, p3⟩ <;> rw [h3] at h <;> dsimp only at h
      · simp at h
      · cases h; exact tokenSaid_complaint
      · simp at h
    · cases h
      unfold Parser.expectSaid
      split
      · rw [show b!"Expected " ++ b!": " = utf8 "Expected : " by decide +kernel]; exact .missing (by simp)
      · rw [show b!"Expected '" ++ b!": " ++ b!"', got '" = utf8 "Expected ': ', got '" by decide +kernel,
          show b!"'" = utf8 "'" by decide +kernel]
        refine .colon hl ((infix_slice _ _ _).trans ?_) (by simp; omega)
        rw [s1]; exact List.infix_refl _
    · simp at h
  · split at h
    · cases h
      rw [show b!"Expected ':'" = utf8 "Expected ':'" by decide +kernel]; exact .missing (by simp)
    · cases h
      rw [show b!"Expected ':' in '" = utf8 "Expected ':' in '" by decide +kernel, show b!"'" = utf8 "'" by decide +kernel]
      exact .field hl (parseUntil_no_colon h1)
  · simp at h

theorem linesSaid_complaint {ls : List Bytes} {said : Said} : ∀ {acc : List HttpHeader}, (∀ l ∈ ls, l ∈ logical) →
    linesSaid acc ls = some said → Complaint up line logical said := by
  induction ls with
  | nil =>
    intro acc _ h
    unfold linesSaid at h
    cases hg : (HttpHeaders.fromVec acc).get b!"Content-Length" with
    | none => rw [hg] at h; simp at h
    | some v =>
      rw [hg] at h
      dsimp only at h
      cases hi : intFail 10 u64Max v with
      | none => rw [hi] at h; simp at h
      | some k => rw [hi] at h; simp only [Option.map_some, Option.some.injEq] at h; subst h; exact .number k
  | cons l ls ih =>
    intro acc hm h
    unfold linesSaid at h
    rcases hd : HttpHeader.deserialize l with hd' | e | _ <;> rw [hd] at h <;> dsimp only at h
    · exact ih (fun l hl => hm l (List.mem_cons_of_mem _ hl)) h
    · exact headerSaid_complaint (hm l List.mem_cons_self) h
    · simp at h

theorem headSaid_complaint {said : Said} (h : headSaid line logical = some said) :
    Complaint CaseMap.upper line logical said := by
  unfold headSaid at h
  rcases hr : parseRequestLine line with a | e | _ <;> rw [hr] at h <;> dsimp only at h
  · exact linesSaid_complaint (fun l hl => hl) h
  · exact requestLineSaid_complaint h
  · simp at h

end

/-! ### Quoting -/

theorem showHex_small : ∀ n : Fin 128, (showHex n).length = (if n.val < 16 then 1 else 2) ∧
    ∀ d ∈ showHex n, ¬ (65 ≤ d.toNat ∧ d.toNat ≤ 90) := by decide +kernel

theorem escape_quotedByte (b : UInt8) (h : b.toNat < 128) : QuotedByte b (escapeByte b) := by
  unfold escapeByte
  split
  · subst_vars; exact .nul
  split
  · subst_vars; exact .tab
  split
  · subst_vars; exact .lf
  split
  · subst_vars; exact .cr
  split
  · subst_vars; exact .mark (.inl rfl)
  split
  · subst_vars; exact .mark (.inr rfl)
  rename_i h0 h9 h10 h13 h34 h92
  split
  · rename_i hc
    rw [show b!"\\u{" = utf8 "\\u{" by decide +kernel, show b!"}" = utf8 "}" by decide +kernel]
    have hsm := showHex_small ⟨b.toNat, h⟩
    refine .control ?_ (numeral_showHex _) hsm.1 hsm.2
    simp only [Bool.or_eq_true, decide_eq_true_eq] at hc
    rcases hc with hc | hc
    · exact .inl ⟨by simpa [UInt8.lt_iff_toNat_lt] using hc, h0, h9, h10, h13⟩
    · exact .inr hc
  · rename_i hc
    simp only [Bool.or_eq_true, decide_eq_true_eq, not_or, UInt8.not_lt, UInt8.le_iff_toNat_le] at hc
    obtain ⟨h1, h2⟩ := hc
    refine .plain h1 ?_ h34 h92
    have : b.toNat ≠ 127 := fun h => h2 (UInt8.toNat_inj.1 h)
    omega

theorem escape_quoted {s : Bytes} (h : AsciiText s) : Quoted s (s.flatMap escapeByte) := by
  induction s with
  | nil => exact .nil
  | cons b s ih =>
    rw [List.flatMap_cons]
    exact .cons (escape_quotedByte b (h b List.mem_cons_self)) (ih fun x hx => h x (List.mem_cons_of_mem _ hx))

end HttpIo
