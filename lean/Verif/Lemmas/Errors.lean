import Verif.Model.Message
import Verif.Lemmas.Parser

/-! Where the errors of the message parsers come from: the transport, or the text. -/

namespace HttpIo

/-- The errors the parsers make themselves. -/
def ParseErr (e : Err) : Prop := e = .parse ∨ e = .parseInt ∨ e = .utf8 ∨ e = .unexpectedEof

theorem Parser.consumeWhitespace_ne_err (p : Parser) (e : Err) : p.consumeWhitespace.1 ≠ .err e := by
  fun_induction Parser.consumeWhitespace p with
  | case1 p hp remaining hs hb ih => exact ih
  | case2 => simp
  | case3 p hp e' hs => exact absurd hs sliceFrom_ne_err
  | case4 => simp
  | case5 => simp

theorem Parser.expect_err {p : Parser} {x : Bytes} {e : Err} (h : (p.expect x).1 = .err e) : ParseErr e := by
  unfold Parser.expect at h
  by_cases hp : p.position ≥ p.s.length
  · rw [if_pos hp] at h; simp at h; simp [ParseErr, ← h]
  · rw [if_neg hp] at h
    cases hs : slice p.s p.position (min p.s.length (p.position + x.length)) with
    | ok a =>
      rw [hs] at h
      dsimp only at h
      by_cases ha : a ≠ x
      · rw [if_pos ha] at h; simp at h; simp [ParseErr, ← h]
      · rw [if_neg ha] at h; simp at h
    | err e' => exact absurd hs slice_ne_err
    | panic => rw [hs] at h; simp at h

theorem parseU32_err {s : Bytes} {e : Err} (h : parseU32 s = .err e) : ParseErr e := by
  unfold parseU32 Res.ofOption at h
  cases hf : fromStrRadix 10 u32Max s with
  | none => rw [hf] at h; simp at h; simp [ParseErr, ← h]
  | some => rw [hf] at h; simp at h

theorem Parser.parseDigit_err {p : Parser} {e : Err} (h : p.parseDigit.1 = .err e) : ParseErr e := by
  unfold Parser.parseDigit at h
  by_cases hp : p.position ≥ p.s.length
  · rw [if_pos hp] at h; simp at h; simp [ParseErr, ← h]
  · rw [if_neg hp] at h
    cases hs : slice p.s p.position (p.position + 1) with
    | ok a => rw [hs] at h; exact parseU32_err h
    | err e' => exact absurd hs slice_ne_err
    | panic => rw [hs] at h; simp at h

theorem Parser.parseUntil_err {p : Parser} {x : Bytes} {e : Err} (h : (p.parseUntil x).1 = .err e) : ParseErr e := by
  unfold Parser.parseUntil at h
  by_cases hp : p.position ≥ p.s.length
  · rw [if_pos hp] at h; simp at h; simp [ParseErr, ← h]
  · rw [if_neg hp] at h
    cases hs : sliceFrom p.s p.position with
    | ok a =>
      rw [hs] at h
      dsimp only at h
      cases hf : findSub x a with
      | none => rw [hf] at h; simp at h; simp [ParseErr, ← h]
      | some => rw [hf] at h; simp at h
    | err e' => exact absurd hs sliceFrom_ne_err
    | panic => rw [hs] at h; simp at h

theorem Parser.parseToken_err {p : Parser} {e : Err} (h : p.parseToken.1 = .err e) : ParseErr e := by
  unfold Parser.parseToken at h
  by_cases hp : p.position ≥ p.s.length
  · rw [if_pos hp] at h; simp at h; simp [ParseErr, ← h]
  · rw [if_neg hp] at h
    cases hs : sliceFrom p.s p.position with
    | ok a =>
      rw [hs] at h
      dsimp only at h
      rcases hc : Parser.consumeWhitespace ⟨p.s, p.position + (a.takeWhile (fun b => !isBlank b)).length⟩ with ⟨r, p'⟩
      rw [hc] at h
      cases r with
      | ok => simp at h
      | err e' => exact absurd (by rw [hc]) (Parser.consumeWhitespace_ne_err _ e')
      | panic => simp at h
    | err e' => exact absurd hs sliceFrom_ne_err
    | panic => rw [hs] at h; simp at h

theorem Parser.parseRemaining_err {p : Parser} {e : Err} (h : p.parseRemaining.1 = .err e) : ParseErr e := by
  unfold Parser.parseRemaining at h
  by_cases hp : p.position > p.s.length
  · rw [if_pos hp] at h; simp at h; simp [ParseErr, ← h]
  · rw [if_neg hp] at h
    cases hs : sliceFrom p.s p.position with
    | ok a => rw [hs] at h; simp at h
    | err e' => exact absurd hs sliceFrom_ne_err
    | panic => rw [hs] at h; simp at h

theorem Parser.parseNumber_err {p : Parser} {e : Err} (h : p.parseNumber.1 = .err e) : ParseErr e := by
  unfold Parser.parseNumber at h
  rcases ht : p.parseToken with ⟨r, p'⟩
  rw [ht] at h
  cases r with
  | ok => exact parseU32_err h
  | err e' => simp at h; rw [← h]; exact Parser.parseToken_err (by rw [ht])
  | panic => simp at h

theorem HttpVersion.fromStr_err {s : Bytes} {e : Err} (h : HttpVersion.fromStr s = .err e) : ParseErr e := by
  unfold HttpVersion.fromStr at h
  rcases h1 : (Parser.new s).expect b!"HTTP/" with ⟨_ | e' | _, p1⟩ <;> rw [h1] at h <;>
    simp only [Res.err.injEq, reduceCtorEq] at h
  · rcases h2 : p1.parseDigit with ⟨_ | e' | _, p2⟩ <;> rw [h2] at h <;> simp only [Res.err.injEq, reduceCtorEq] at h
    · rcases h3 : p2.expect b!"." with ⟨_ | e' | _, p3⟩ <;> rw [h3] at h <;> simp only [Res.err.injEq, reduceCtorEq] at h
      · rcases h4 : p3.parseDigit with ⟨_ | e' | _, p4⟩ <;> rw [h4] at h <;> simp only [Res.err.injEq, reduceCtorEq] at h
        rw [← h]; exact Parser.parseDigit_err (by rw [h4])
      · rw [← h]; exact Parser.expect_err (by rw [h3])
    · rw [← h]; exact Parser.parseDigit_err (by rw [h2])
  · rw [← h]; exact Parser.expect_err (by rw [h1])

section
variable [CaseMap]

theorem HttpMethod.fromStr_err {s : Bytes} {e : Err} (h : HttpMethod.fromStr s = .err e) : ParseErr e := by
  unfold HttpMethod.fromStr at h
  repeat' split at h
  all_goals simp only [Res.err.injEq, reduceCtorEq] at h
  exact .inl h.symm

theorem parseRequestLine_err {line : Bytes} {e : Err} (h : parseRequestLine line = .err e) : ParseErr e := by
  unfold parseRequestLine at h
  rcases h1 : (Parser.new line).parseToken with ⟨tok | e' | _, p1⟩ <;> rw [h1] at h <;>
    simp only [Res.err.injEq, reduceCtorEq] at h
  · rcases h2 : HttpMethod.fromStr tok with m | e' | _ <;> rw [h2] at h <;> simp only [Res.err.injEq, reduceCtorEq] at h
    · rcases h3 : p1.parseToken with ⟨uri | e' | _, p2⟩ <;> rw [h3] at h <;> simp only [Res.err.injEq, reduceCtorEq] at h
      · rcases h4 : p2.parseToken with ⟨tok3 | e' | _, p3⟩ <;> rw [h4] at h <;> simp only [Res.err.injEq, reduceCtorEq] at h
        · rcases h5 : HttpVersion.fromStr tok3 with v | e' | _ <;> rw [h5] at h <;>
            simp only [Res.err.injEq, reduceCtorEq] at h
          rw [← h]; exact HttpVersion.fromStr_err h5
        · rw [← h]; exact Parser.parseToken_err (by rw [h4])
      · rw [← h]; exact Parser.parseToken_err (by rw [h3])
    · rw [← h]; exact HttpMethod.fromStr_err h2
  · rw [← h]; exact Parser.parseToken_err (by rw [h1])

omit [CaseMap] in
theorem HttpStatus.fromStr_err {s : Bytes} {e : Err} (h : HttpStatus.fromStr s = .err e) : ParseErr e := by
  unfold HttpStatus.fromStr at h
  rcases h1 : (Parser.new s).parseNumber with ⟨_ | e' | _, p1⟩ <;> rw [h1] at h <;>
    simp only [Res.err.injEq, reduceCtorEq] at h
  rw [← h]; exact Parser.parseNumber_err (by rw [h1])

omit [CaseMap] in
theorem parseStatusLine_err {line : Bytes} {e : Err} (h : parseStatusLine line = .err e) : ParseErr e := by
  unfold parseStatusLine at h
  rcases h1 : (Parser.new line).parseToken with ⟨tok | e' | _, p1⟩ <;> rw [h1] at h <;>
    simp only [Res.err.injEq, reduceCtorEq] at h
  · rcases h2 : HttpVersion.fromStr tok with m | e' | _ <;> rw [h2] at h <;> simp only [Res.err.injEq, reduceCtorEq] at h
    · rcases h3 : p1.parseRemaining with ⟨x | e' | _, p2⟩ <;> rw [h3] at h <;> simp only [Res.err.injEq, reduceCtorEq] at h
      · rcases h5 : HttpStatus.fromStr x with v | e' | _ <;> rw [h5] at h <;>
          simp only [Res.err.injEq, reduceCtorEq] at h
        rw [← h]; exact HttpStatus.fromStr_err h5
      · rw [← h]; exact Parser.parseRemaining_err (by rw [h3])
    · rw [← h]; exact HttpVersion.fromStr_err h2
  · rw [← h]; exact Parser.parseToken_err (by rw [h1])

theorem HttpHeader.deserialize_err {s : Bytes} {e : Err} (h : HttpHeader.deserialize s = .err e) : ParseErr e := by
  unfold HttpHeader.deserialize at h
  rcases h1 : (Parser.new s).parseUntil b!":" with ⟨k | e' | _, p1⟩ <;> rw [h1] at h <;>
    simp only [Res.err.injEq, reduceCtorEq] at h
  · rcases h2 : p1.expect b!": " with ⟨_ | e' | _, p2⟩ <;> rw [h2] at h <;> simp only [Res.err.injEq, reduceCtorEq] at h
    · rcases h3 : p2.parseRemaining with ⟨v | e' | _, p3⟩ <;> rw [h3] at h <;> simp only [Res.err.injEq, reduceCtorEq] at h
      rw [← h]; exact Parser.parseRemaining_err (by rw [h3])
    · rw [← h]; exact Parser.expect_err (by rw [h2])
  · rw [← h]; exact Parser.parseUntil_err (by rw [h1])

theorem contentLengthOf_err {hs : HttpHeaders} {e : Err} (h : contentLengthOf hs = .err e) : ParseErr e := by
  unfold contentLengthOf at h
  cases hg : hs.get b!"Content-Length" with
  | none => rw [hg] at h; simp at h
  | some v =>
    rw [hg] at h
    dsimp only at h
    unfold parseU64 Res.ofOption at h
    cases hf : fromStrRadix 10 u64Max v with
    | none => rw [hf] at h; simp at h; simp [ParseErr, ← h]
    | some => rw [hf] at h; simp at h

end

section
variable {σ : Type} [LawfulReader σ] {c : Cfg}

theorem bytesNext_faults {s s' : σ} {r : Option (Except Err UInt8)} (h : bytesNext c s = (r, s')) :
    (∀ e, .fault e ∈ trace s' → .fault e ∈ trace s) ∧ (∀ e, r = some (.error e) → .fault e ∈ trace s) := by
  fun_induction bytesNext c s with
  | case1 s s1 hr =>
    simp only [Prod.mk.injEq] at h
    have := LawfulReader.read_step s 1 (by omega)
    rw [hr] at this
    rcases this.ok_inv with ⟨_, h2, h3⟩ | ⟨h1, _⟩
    · rw [← h.1, ← h.2]; dsimp only at h3; rw [h3]; simp
    · exact absurd rfl h1
  | case2 s b bs s1 hr =>
    simp only [Prod.mk.injEq] at h
    have := trace_of_data (by omega) (by simp) hr
    rw [← h.1, ← h.2, this]
    refine ⟨fun e he => List.mem_append_right _ he, by simp⟩
  | case3 s e s1 hr hret ih =>
    have := LawfulReader.read_step s 1 (by omega)
    rw [hr] at this
    have ht := this.error_inv
    dsimp only at ht
    rw [ht]
    exact ⟨fun e he => List.mem_cons_of_mem _ ((ih h).1 e he), fun e he => List.mem_cons_of_mem _ ((ih h).2 e he)⟩
  | case4 s e s1 hr hret =>
    simp only [Prod.mk.injEq] at h
    have := LawfulReader.read_step s 1 (by omega)
    rw [hr] at this
    have ht := this.error_inv
    dsimp only at ht
    rw [ht, ← h.1, ← h.2]
    refine ⟨fun e he => List.mem_cons_of_mem _ he, ?_⟩
    intro e' he'
    simp only [Option.some.injEq, Except.error.injEq] at he'
    rw [he']; exact List.mem_cons_self

theorem innerNextLoop_faults {s s' : σ} {line : Bytes} {r : Except Err (Option Bytes)}
    (h : innerNextLoop c line s = (r, s')) :
    (∀ e, .fault e ∈ trace s' → .fault e ∈ trace s) ∧ (∀ e, r = .error e → .fault e ∈ trace s ∨ ParseErr e) := by
  fun_induction innerNextLoop c line s with
  | case1 line s s1 hb =>
    simp only [Prod.mk.injEq] at h
    rw [← h.1, ← h.2]
    exact ⟨(bytesNext_faults hb).1, fun e he => .inr (by simp at he; simp [ParseErr, ← he])⟩
  | case2 line s e s1 hb =>
    simp only [Prod.mk.injEq] at h
    rw [← h.1, ← h.2]
    refine ⟨(bytesNext_faults hb).1, fun e' he => .inl ((bytesNext_faults hb).2 e' ?_)⟩
    simp only [Except.error.injEq] at he; rw [he]
  | case3 line s b s1 hb =>
    simp only [Prod.mk.injEq] at h
    rw [← h.1, ← h.2]; exact ⟨(bytesNext_faults hb).1, by simp⟩
  | case4 line s b s1 hb =>
    simp only [Prod.mk.injEq] at h
    rw [← h.1, ← h.2]; exact ⟨(bytesNext_faults hb).1, by simp⟩
  | case5 line s b s1 hb =>
    simp only [Prod.mk.injEq] at h
    rw [← h.1, ← h.2]
    exact ⟨(bytesNext_faults hb).1, fun e he => .inr (by simp at he; simp [ParseErr, ← he])⟩
  | case6 line s b s1 hb line' hc ih =>
    have h1 := (bytesNext_faults hb).1
    exact ⟨fun e he => h1 e ((ih h).1 e he), fun e he => ((ih h).2 e he).imp_left (h1 e)⟩

theorem crlfNext_faults {s s' : σ} {r : Option (Except Err Bytes)} (h : crlfNext c s = (r, s')) :
    (∀ e, .fault e ∈ trace s' → .fault e ∈ trace s) ∧
      (∀ e, r = some (.error e) → .fault e ∈ trace s ∨ ParseErr e) := by
  unfold crlfNext innerNext at h
  rcases hi : innerNextLoop c [] s with ⟨e | _ | l, s1⟩ <;> rw [hi] at h <;> simp only [Prod.mk.injEq] at h <;>
    rw [← h.1, ← h.2] <;> have := innerNextLoop_faults hi <;> refine ⟨this.1, ?_⟩
  · intro e' he; exact this.2 e' (by simpa using he)
  · simp
  · simp

theorem expectNext_faults {s s' : σ} {r : Except Err Bytes} (h : expectNext c s = (r, s')) :
    (∀ e, .fault e ∈ trace s' → .fault e ∈ trace s) ∧ (∀ e, r = .error e → .fault e ∈ trace s ∨ ParseErr e) := by
  unfold expectNext innerNext at h
  rcases hi : innerNextLoop c [] s with ⟨e | _ | l, s1⟩ <;> rw [hi] at h <;> simp only [Prod.mk.injEq] at h <;>
    rw [← h.1, ← h.2] <;> have := innerNextLoop_faults hi <;> refine ⟨this.1, ?_⟩
  · intro e' he; exact this.2 e' (by simpa using he)
  · intro e' he; exact .inr (by simp at he; simp [ParseErr, ← he])
  · simp

theorem gather_faults (line : Bytes) (s : σ) :
    (∀ e, .fault e ∈ trace (HttpHeaders.gather c line s).2.2 → .fault e ∈ trace s) ∧
      (∀ e, (HttpHeaders.gather c line s).2.1 = some (.error e) → .fault e ∈ trace s ∨ ParseErr e) := by
  fun_induction HttpHeaders.gather c line s with
  | case1 line s next s' hn _ ih =>
    have h1 := (crlfNext_faults hn).1
    exact ⟨fun e he => h1 e (ih.1 e he), fun e he => (ih.2 e he).imp_left (h1 e)⟩
  | case2 line s next s' hn _ => exact ⟨(crlfNext_faults hn).1, by simp⟩
  | case3 line s item s' _ hn => exact crlfNext_faults hn

variable [CaseMap]

theorem deserializeLoop_faults {s : σ} {item : Option (Except Err Bytes)} {acc : List HttpHeader} :
    ∀ e, (HttpHeaders.deserializeLoop c item acc s).1 = .err e → .fault e ∈ trace s ∨ ParseErr e ∨ item = some (.error e) := by
  fun_induction HttpHeaders.deserializeLoop c item acc s with
  | case1 => simp
  | case2 acc s e => intro e' he; simp at he; exact .inr (.inr (by rw [he]))
  | case3 acc s line line' item' s' hg hd hok ih =>
    have := gather_faults (c := c) line s
    rw [hg] at this
    intro e he
    rcases ih e he with h | h | h
    · exact .inl (this.1 e h)
    · exact .inr (.inl h)
    · rcases this.2 e h with h | h
      · exact .inl h
      · exact .inr (.inl h)
  | case4 acc s line line' item' s' hg e hd =>
    intro e' he
    simp only [Res.err.injEq] at he
    rw [← he]; exact .inr (.inl (HttpHeader.deserialize_err hd))
  | case5 => simp

theorem headers_faults {s : σ} {e : Err} (h : (HttpHeaders.deserialize c s).1 = .err e) :
    .fault e ∈ trace s ∨ ParseErr e := by
  unfold HttpHeaders.deserialize at h
  rcases hn : crlfNext c s with ⟨item, s1⟩
  rw [hn] at h
  dsimp only at h
  have h1 := crlfNext_faults hn
  rcases hl : HttpHeaders.deserializeLoop c item [] s1 with ⟨_ | e' | _, s2⟩ <;> rw [hl] at h <;>
    simp only [Res.err.injEq, reduceCtorEq] at h
  rw [← h]
  rcases deserializeLoop_faults e' (by rw [hl]) with h2 | h2 | h2
  · exact .inl (h1.1 _ h2)
  · exact .inr h2
  · exact h1.2 _ h2

theorem parseHead_faults {α : Type} {start : Bytes → Res α} (hst : ∀ l e, start l = .err e → ParseErr e) {s : σ} {e : Err}
    (h : (parseHead c start s).1 = .err e) : .fault e ∈ trace s ∨ ParseErr e := by
  unfold parseHead at h
  rcases hn : expectNext c s with ⟨e' | line, s1⟩ <;> rw [hn] at h <;> dsimp only at h
  · simp only [Res.err.injEq] at h
    rw [← h]; exact (expectNext_faults hn).2 _ rfl
  · rcases ha : start line with a | e' | _ <;> rw [ha] at h <;> simp only [Res.err.injEq, reduceCtorEq] at h
    · rcases hh : HttpHeaders.deserialize c s1 with ⟨hs | e' | _, s2⟩ <;> rw [hh] at h <;>
        simp only [Res.err.injEq, reduceCtorEq] at h
      · rcases hc : contentLengthOf hs with n | e' | _ <;> rw [hc] at h <;> simp only [Res.err.injEq, reduceCtorEq] at h
        rw [← h]; exact .inr (contentLengthOf_err hc)
      · rw [← h]; exact (headers_faults (by rw [hh])).imp_left ((expectNext_faults hn).1 _)
    · rw [← h]; exact .inr (hst _ _ ha)

theorem request_faults {s : σ} {e : Err} (h : (HttpRequest.deserialize c s).1 = .err e) : .fault e ∈ trace s ∨ ParseErr e := by
  unfold HttpRequest.deserialize at h
  rcases hp : parseHead c parseRequestLine s with ⟨⟨⟨_, _, _⟩, _, _, _⟩ | e' | _, s1⟩ <;> rw [hp] at h <;>
    simp only [Res.err.injEq, reduceCtorEq] at h
  rw [← h]; exact parseHead_faults (fun _ _ => parseRequestLine_err) (by rw [hp])

theorem response_faults {s : σ} {e : Err} (h : (HttpResponse.deserialize c s).1 = .err e) :
    .fault e ∈ trace s ∨ ParseErr e := by
  unfold HttpResponse.deserialize at h
  rcases hp : parseHead c parseStatusLine s with ⟨⟨⟨_, _⟩, _, _, _⟩ | e' | _, s1⟩ <;> rw [hp] at h <;>
    simp only [Res.err.injEq, reduceCtorEq] at h
  rw [← h]; exact parseHead_faults (fun _ _ => parseStatusLine_err) (by rw [hp])

end

end HttpIo
