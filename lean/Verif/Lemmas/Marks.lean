import Verif.Lemmas.Errors
import Verif.Lemmas.ReadKept

/-! A mark that a failing read leaves: if a parser reports an error that is not about the bytes, the mark is there. -/

namespace HttpIo
open Spec

/-- `Q` holds after a read that failed, and stays. -/
structure ReadMarks {σ : Type} [Reader σ] (Q : σ → Prop) : Prop extends ReadKept Q where
  error : ∀ s n e, (HttpIo.read s n).1 = .error e → Q (HttpIo.read s n).2

section
variable {c : Cfg} {σ : Type} [LawfulReader σ] {Q : σ → Prop}

theorem ReadMarks.bytesNext (h : ReadMarks Q) {s : σ} {e : Err} (he : (bytesNext c s).1 = some (.error e)) :
    Q (bytesNext c s).2 := by
  fun_induction HttpIo.bytesNext c s with
  | case1 => simp at he
  | case2 => simp at he
  | case3 s e1 s1 hr hret ih => exact ih he
  | case4 s e1 s1 hr hret => have := h.error s 1 e1 (by rw [hr]); rwa [hr] at this

theorem ReadMarks.innerNextLoop (h : ReadMarks Q) {s : σ} {line : Bytes} {e : Err}
    (he : (innerNextLoop c line s).1 = .error e) : Q (innerNextLoop c line s).2 ∨ ParseErr e := by
  fun_induction HttpIo.innerNextLoop c line s with
  | case1 line s s1 hb => right; simp only [Except.error.injEq] at he; simp [ParseErr, ← he]
  | case2 line s e1 s1 hb => left; have := h.bytesNext (c := c) (s := s) (e := e1) (by rw [hb]); rwa [hb] at this
  | case3 => simp at he
  | case4 => simp at he
  | case5 line s b s1 hb => right; simp only [Except.error.injEq] at he; simp [ParseErr, ← he]
  | case6 line s b s1 hb line' hc ih => exact ih he

theorem ReadMarks.crlfNext (h : ReadMarks Q) {s : σ} {e : Err} (he : (crlfNext c s).1 = some (.error e)) :
    Q (crlfNext c s).2 ∨ ParseErr e := by
  unfold HttpIo.crlfNext innerNext at he ⊢
  rcases hi : HttpIo.innerNextLoop c [] s with ⟨e1 | _ | _, s1⟩ <;> rw [hi] at he <;> dsimp only at he ⊢ <;>
    simp only [Option.some.injEq, Except.error.injEq, reduceCtorEq] at he
  have := h.innerNextLoop (c := c) (s := s) (line := []) (e := e1) (by rw [hi])
  rw [hi, he] at this; exact this

theorem ReadMarks.expectNext (h : ReadMarks Q) {s : σ} {e : Err} (he : (expectNext c s).1 = .error e) :
    Q (expectNext c s).2 ∨ ParseErr e := by
  unfold HttpIo.expectNext innerNext at he ⊢
  rcases hi : HttpIo.innerNextLoop c [] s with ⟨e1 | _ | _, s1⟩ <;> rw [hi] at he <;> dsimp only at he ⊢ <;>
    simp only [Except.error.injEq, reduceCtorEq] at he
  · have := h.innerNextLoop (c := c) (s := s) (line := []) (e := e1) (by rw [hi])
    rw [hi, he] at this; exact this
  · right; simp [ParseErr, ← he]

theorem ReadMarks.gather (h : ReadMarks Q) {s : σ} {line : Bytes} {e : Err}
    (he : (HttpHeaders.gather c line s).2.1 = some (.error e)) : Q (HttpHeaders.gather c line s).2.2 ∨ ParseErr e := by
  fun_induction HttpHeaders.gather c line s with
  | case1 line s next s' hn _ ih => exact ih he
  | case2 line s next s' hn _ => simp at he
  | case3 line s item s' _ hn =>
    have := h.crlfNext (c := c) (s := s) (e := e) (by rw [hn]; exact he)
    rwa [hn] at this

variable [CaseMap]

theorem ReadMarks.deserializeLoop (h : ReadMarks Q) {s : σ} {item : Option (Except Err Bytes)} {acc : List HttpHeader} {e : Err}
    (hi : ∀ e, item = some (.error e) → Q s ∨ ParseErr e) (he : (HttpHeaders.deserializeLoop c item acc s).1 = .err e) :
    Q (HttpHeaders.deserializeLoop c item acc s).2 ∨ ParseErr e := by
  fun_induction HttpHeaders.deserializeLoop c item acc s with
  | case1 => simp at he
  | case2 acc s e1 => simp only [Res.err.injEq] at he; exact hi e (by rw [he])
  | case3 acc s line line' item' s' hg hd hok ih =>
    refine ih (fun e1 h1 => ?_) he
    have := h.gather (c := c) (s := s) (line := line) (e := e1) (by rw [hg]; exact h1)
    rwa [hg] at this
  | case4 acc s line line' item' s' hg e1 hd =>
    simp only [Res.err.injEq] at he
    rw [← he]; exact .inr (HttpHeader.deserialize_err hd)
  | case5 => simp at he

theorem ReadMarks.headers (h : ReadMarks Q) {s : σ} {e : Err} (he : (HttpHeaders.deserialize c s).1 = .err e) :
    Q (HttpHeaders.deserialize c s).2 ∨ ParseErr e := by
  unfold HttpHeaders.deserialize at he ⊢
  rcases hc : HttpIo.crlfNext c s with ⟨item, s1⟩
  rw [hc] at he
  dsimp only at he ⊢
  rcases hd : HttpHeaders.deserializeLoop c item [] s1 with ⟨_ | e1 | _, s2⟩ <;> rw [hd] at he <;> dsimp only at he ⊢ <;>
    simp only [Res.err.injEq, reduceCtorEq] at he
  have := h.deserializeLoop (c := c) (s := s1) (item := item) (acc := []) (e := e1) (fun e2 h2 => by
    have := h.crlfNext (c := c) (s := s) (e := e2) (by rw [hc]; exact h2)
    rwa [hc] at this) (by rw [hd])
  rw [hd, he] at this; exact this

theorem ReadMarks.request (h : ReadMarks Q) {s : σ} {e : Err} (he : (HttpRequest.deserialize c s).1 = .err e) :
    Q (HttpRequest.deserialize c s).2 ∨ ParseErr e := by
  have head : ∀ {e : Err}, (parseHead c parseRequestLine s).1 = .err e →
      Q (parseHead c parseRequestLine s).2 ∨ ParseErr e := by
    intro e he
    unfold parseHead at he ⊢
    rcases hn : HttpIo.expectNext c s with ⟨e1 | line, s1⟩ <;> rw [hn] at he <;> dsimp only at he ⊢
    · simp only [Res.err.injEq] at he
      have := h.expectNext (c := c) (s := s) (e := e1) (by rw [hn])
      rw [hn, he] at this; exact this
    · rcases ha : parseRequestLine line with a | e1 | _ <;> rw [ha] at he <;> dsimp only at he ⊢
      · rcases hh : HttpHeaders.deserialize c s1 with ⟨hs | e1 | _, s2⟩ <;> rw [hh] at he <;> dsimp only at he ⊢
        · rcases hl : contentLengthOf hs with n | e1 | _ <;> rw [hl] at he <;> simp only [Res.err.injEq, reduceCtorEq] at he
          rw [← he]; exact .inr (contentLengthOf_err hl)
        · simp only [Res.err.injEq] at he
          have := h.headers (c := c) (s := s1) (e := e1) (by rw [hh])
          rw [hh, he] at this; exact this
        · simp at he
      · simp only [Res.err.injEq] at he
        rw [← he]; exact .inr (parseRequestLine_err ha)
      · simp at he
  unfold HttpRequest.deserialize at he ⊢
  rcases hp : parseHead c parseRequestLine s with ⟨⟨⟨_, _, _⟩, _, _, _⟩ | e1 | _, s1⟩ <;> rw [hp] at he <;> dsimp only at he ⊢ <;>
    simp only [Res.err.injEq, reduceCtorEq] at he
  have := head (e := e1) (by rw [hp])
  rw [hp, he] at this; exact this

end

theorem ReadMarks.bufReader {c : Cfg} {σ : Type} [Reader σ] {Q : σ → Prop} (h : ReadMarks Q) :
    ReadMarks fun r : BufReader c σ => Q r.inner := by
  refine ⟨h.toReadKept.bufReader, fun r n e he => ?_⟩
  rw [BufReader.read_def] at he ⊢
  unfold BufReader.readImpl at he ⊢
  by_cases hc : c.std = true
  · rw [if_pos hc] at he ⊢
    by_cases hb : r.buf.isEmpty = true
    · rw [if_pos hb] at he ⊢
      by_cases hn : n ≥ bufCap
      · rw [if_pos hn] at he ⊢; exact h.error _ _ e he
      · rw [if_neg hn] at he ⊢
        rcases hrd : HttpIo.read r.inner bufCap with ⟨e1 | _, i⟩ <;> rw [hrd] at he <;> dsimp only at he ⊢
        · have := h.error r.inner bufCap e1 (by rw [hrd]); rwa [hrd] at this
        · simp at he
    · rw [if_neg hb] at he; simp at he
  · rw [if_neg hc] at he ⊢; exact h.error _ _ e he

end HttpIo
