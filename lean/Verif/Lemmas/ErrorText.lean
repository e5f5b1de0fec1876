import Verif.Model.ErrorText
import Verif.Lemmas.Errors
import Verif.Lemmas.Head

/-! The texts of errors belong to the errors of the model: same outcome, with the payload added. -/

namespace HttpIo
open Spec

theorem digitFail_none {radix max : Nat} {s : Bytes} : ∀ {acc : Nat},
    digitFail radix max acc s = none ↔ digitLoop radix max acc s ≠ none := by
  induction s with
  | nil => simp [digitFail, digitLoop]
  | cons b bs ih =>
    intro acc
    unfold digitFail digitLoop
    cases toDigit radix b with
    | none => simp
    | some d =>
      dsimp only
      split
      · split
        · exact ih
        · simp
      · simp

theorem intFail_none {radix max : Nat} {s : Bytes} : intFail radix max s = none ↔ fromStrRadix radix max s ≠ none := by
  rcases s with _ | ⟨b, _ | ⟨b', bs⟩⟩
  · simp [intFail, fromStrRadix]
  · simp only [intFail, fromStrRadix]
    split
    · simp
    · exact digitFail_none
  · simp only [intFail, fromStrRadix]
    split <;> exact digitFail_none

theorem Parser.expectSaid_err {p : Parser} {x : Bytes} {e : Err} (h : (p.expect x).1 = .err e) : (p.expectSaid x).err = e := by
  unfold Parser.expect at h
  unfold Parser.expectSaid
  by_cases hp : p.position ≥ p.s.length
  · rw [if_pos hp] at h ⊢; simpa [Said.err] using h
  · rw [if_neg hp] at h ⊢
    cases hs : slice p.s p.position (min p.s.length (p.position + x.length)) with
    | ok a =>
      rw [hs] at h
      dsimp only at h
      by_cases ha : a ≠ x
      · rw [if_pos ha] at h; simpa [Said.err] using h
      · rw [if_neg ha] at h; simp at h
    | err e' => exact absurd hs slice_ne_err
    | panic => rw [hs] at h; simp at h

theorem parseU32_parseInt {s : Bytes} {e : Err} (h : parseU32 s = .err e) : e = .parseInt := by
  unfold parseU32 Res.ofOption at h
  cases hf : fromStrRadix 10 u32Max s with
  | none => rw [hf] at h; simp at h; exact h.symm
  | some => rw [hf] at h; simp at h

theorem Parser.digitSaid_err {p : Parser} {e : Err} (h : p.parseDigit.1 = .err e) : p.digitSaid.err = e := by
  unfold Parser.parseDigit at h
  unfold Parser.digitSaid
  by_cases hp : p.position ≥ p.s.length
  · rw [if_pos hp] at h ⊢; simpa [Said.err] using h
  · rw [if_neg hp] at h ⊢
    cases hs : slice p.s p.position (p.position + 1) with
    | ok a => rw [hs] at h; exact (parseU32_parseInt h).symm
    | err e' => exact absurd hs slice_ne_err
    | panic => rw [hs] at h; simp at h

theorem Parser.parseToken_eof {p : Parser} {e : Err} (h : p.parseToken.1 = .err e) : tokenSaid.err = e := by
  unfold Parser.parseToken at h
  by_cases hp : p.position ≥ p.s.length
  · rw [if_pos hp] at h; simpa [tokenSaid, Said.err] using h
  · rw [if_neg hp] at h
    cases hs : sliceFrom p.s p.position with
    | ok a =>
      rw [hs] at h
      dsimp only at h
      rcases hc : Parser.consumeWhitespace ⟨p.s, p.position + (a.takeWhile (fun b => !isBlank b)).length⟩ with ⟨r, p'⟩
      rw [hc] at h
      cases r with
      | ok => simp at h
      | err e' => exact absurd (by rw [hc]) (Parser.consumeWhitespace_ne_err _ e')
      | panic => simp at h
    | err e' => exact absurd hs sliceFrom_ne_err
    | panic => rw [hs] at h; simp at h

theorem Parser.parseRemaining_eof {p : Parser} {e : Err} (h : p.parseRemaining.1 = .err e) : tokenSaid.err = e := by
  unfold Parser.parseRemaining at h
  by_cases hp : p.position > p.s.length
  · rw [if_pos hp] at h; simpa [tokenSaid, Said.err] using h
  · rw [if_neg hp] at h
    cases hs : sliceFrom p.s p.position with
    | ok a => rw [hs] at h; simp at h
    | err e' => exact absurd hs sliceFrom_ne_err
    | panic => rw [hs] at h; simp at h

/-- The error of an outcome, if it is one. -/
def Res.errOf {α : Type} : Res α → Option Err
  | .err e => some e
  | _ => none

/-- `said` is what is reported exactly when `r` is an error, and it is that error. -/
def SaidFor {α : Type} (r : Res α) (said : Option Said) : Prop := said.map Said.err = r.errOf

theorem saidFor_some {α : Type} {e : Err} {s : Said} (h : s.err = e) : SaidFor (.err e : Res α) (some s) := by
  simp [SaidFor, Res.errOf, h]

theorem versionSaid_for (s : Bytes) : SaidFor (HttpVersion.fromStr s) (versionSaid s) := by
  unfold HttpVersion.fromStr versionSaid
  rcases h1 : (Parser.new s).expect b!"HTTP/" with ⟨_ | e' | _, p1⟩ <;> dsimp only
  · rcases h2 : p1.parseDigit with ⟨_ | e' | _, p2⟩ <;> dsimp only
    · rcases h3 : p2.expect b!"." with ⟨_ | e' | _, p3⟩ <;> dsimp only
      · rcases h4 : p3.parseDigit with ⟨_ | e' | _, p4⟩ <;> dsimp only
        · rfl
        · exact saidFor_some (Parser.digitSaid_err (by rw [h4]))
        · rfl
      · exact saidFor_some (Parser.expectSaid_err (by rw [h3]))
      · rfl
    · exact saidFor_some (Parser.digitSaid_err (by rw [h2]))
    · rfl
  · exact saidFor_some (Parser.expectSaid_err (by rw [h1]))
  · rfl

section
variable [CaseMap]

theorem HttpMethod.fromStr_parse {s : Bytes} {e : Err} (h : HttpMethod.fromStr s = .err e) : e = .parse := by
  unfold HttpMethod.fromStr at h
  repeat' split at h
  all_goals simp only [Res.err.injEq, reduceCtorEq] at h
  exact h.symm

theorem requestLineSaid_for (line : Bytes) : SaidFor (parseRequestLine line) (requestLineSaid line) := by
  unfold parseRequestLine requestLineSaid
  rcases h1 : (Parser.new line).parseToken with ⟨tok | e' | _, p1⟩ <;> dsimp only
  · rcases h2 : HttpMethod.fromStr tok with m | e' | _ <;> dsimp only
    · rcases h3 : p1.parseToken with ⟨uri | e' | _, p2⟩ <;> dsimp only
      · rcases h4 : p2.parseToken with ⟨tok3 | e' | _, p3⟩ <;> dsimp only
        · have := versionSaid_for tok3
          rcases h5 : HttpVersion.fromStr tok3 with v | e' | _ <;> rw [h5] at this <;> exact this
        · exact saidFor_some (Parser.parseToken_eof (by rw [h4]))
        · rfl
      · exact saidFor_some (Parser.parseToken_eof (by rw [h3]))
      · rfl
    · exact saidFor_some (HttpMethod.fromStr_parse h2).symm
    · rfl
  · exact saidFor_some (Parser.parseToken_eof (by rw [h1]))
  · rfl

theorem headerSaid_for (s : Bytes) : SaidFor (HttpHeader.deserialize s) (headerSaid s) := by
  unfold HttpHeader.deserialize headerSaid
  rcases h1 : (Parser.new s).parseUntil b!":" with ⟨key | e' | _, p1⟩ <;> dsimp only
  · rcases h2 : p1.expect b!": " with ⟨_ | e' | _, p2⟩ <;> dsimp only
    · rcases h3 : p2.parseRemaining with ⟨_ | e' | _, p3⟩ <;> dsimp only
      · rfl
      · exact saidFor_some (Parser.parseRemaining_eof (by rw [h3]))
      · rfl
    · exact saidFor_some (Parser.expectSaid_err (by rw [h2]))
    · rfl
  · unfold Parser.parseUntil Parser.new at h1
    dsimp only at h1
    by_cases hl : s.length = 0
    · rw [if_pos (by omega)] at h1
      rw [if_pos hl]
      simp only [Prod.mk.injEq, Res.err.injEq] at h1
      exact saidFor_some h1.1
    · rw [if_neg (by omega)] at h1
      rw [if_neg hl]
      cases hs : sliceFrom s 0 with
      | ok a =>
        rw [hs] at h1
        dsimp only at h1
        cases hf : findSub b!":" a with
        | none => rw [hf] at h1; simp only [Prod.mk.injEq, Res.err.injEq] at h1; exact saidFor_some h1.1
        | some => rw [hf] at h1; simp at h1
      | err e' => exact absurd hs sliceFrom_ne_err
      | panic => rw [hs] at h1; simp at h1
  · rfl

/-- The header lines and the content length together. -/
theorem linesSaid_for (logical : List Bytes) : ∀ acc : List HttpHeader,
    SaidFor (match parseLines logical with
      | .err e => .err e
      | .panic => .panic
      | .ok hds => contentLengthOf (HttpHeaders.fromVec (acc ++ hds))) (linesSaid acc logical) := by
  induction logical with
  | nil =>
    intro acc
    unfold parseLines linesSaid
    simp only [List.append_nil]
    unfold contentLengthOf
    cases (HttpHeaders.fromVec acc).get b!"Content-Length" with
    | none => rfl
    | some v =>
      dsimp only
      unfold parseU64 Res.ofOption
      cases hf : fromStrRadix 10 u64Max v with
      | none =>
        dsimp only
        cases hi : intFail 10 u64Max v with
        | none => exact absurd hf (intFail_none.1 hi)
        | some k => rfl
      | some n =>
        rw [intFail_none.2 (by rw [hf]; simp)]
        rfl
  | cons l ls ih =>
    intro acc
    unfold parseLines linesSaid
    have hh := headerSaid_for l
    rcases hd : HttpHeader.deserialize l with hd' | e | _
    · have := ih (acc ++ [hd'])
      dsimp only
      cases hp : parseLines ls with
      | ok hds => rw [hp] at this; simpa [Res.map] using this
      | err e => rw [hp] at this; simpa [Res.map] using this
      | panic => rw [hp] at this; simpa [Res.map] using this
    · rw [hd] at hh; exact hh
    · rfl

theorem headSaid_for (line : Bytes) (logical : List Bytes) :
    SaidFor (headOutcome parseRequestLine line logical) (headSaid line logical) := by
  unfold headOutcome headSaid
  have h1 := requestLineSaid_for line
  rcases hr : parseRequestLine line with a | e | _
  · have := linesSaid_for logical []
    dsimp only
    cases hp : parseLines logical with
    | ok hds =>
      rw [hp] at this
      dsimp only at this ⊢
      rw [List.nil_append] at this
      cases hc : contentLengthOf (HttpHeaders.fromVec hds) <;> rw [hc] at this <;> exact this
    | err e => rw [hp] at this; exact this
    | panic => rw [hp] at this; exact this
  · rw [hr] at h1; exact h1
  · rfl

end

end HttpIo
