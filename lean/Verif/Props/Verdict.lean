import Verif.Lemmas.Errors
import Verif.Props.Accept

/-! C158: a verdict on a message head is final. -/

namespace HttpIo
open Spec

theorem innerNextT_append (c : Cfg) (more : List Ev) (line : Bytes) (t : List Ev) :
    innerNextT c line t = (.error .unexpectedEof, []) ∨
    innerNextT c line (t ++ more) = ((innerNextT c line t).1, (innerNextT c line t).2 ++ more) := by
  fun_induction innerNextT c line t with
  | case1 => exact .inl rfl
  | case2 line b t r hr => exact .inr (by simp [innerNextT, hr])
  | case3 line b t hr ih => simpa [innerNextT, hr] using ih
  | case4 line e t hr ih => simpa [innerNextT, hr] using ih
  | case5 line e t hr => exact .inr (by simp [innerNextT, hr])

section
variable {σ τ : Type} [LawfulReader σ] [LawfulReader τ]

theorem innerNext_more {c : Cfg} {s : σ} {u : τ} {more : List Ev} (h : trace u = trace s ++ more) :
    ((innerNext c s).1 = .error .unexpectedEof ∧ trace (innerNext c s).2 = []) ∨
    ((innerNext c u).1 = (innerNext c s).1 ∧ trace (innerNext c u).2 = trace (innerNext c s).2 ++ more) := by
  have h1 := innerNextLoop_trace c [] s
  have h2 := innerNextLoop_trace c [] u
  rw [h] at h2
  rcases innerNextT_append c more [] (trace s) with ha | ha
  · rw [ha] at h1
    left
    simpa [innerNext] using h1
  · rw [ha, ← h1] at h2
    right
    simpa [innerNext] using h2

theorem crlfNext_more {c : Cfg} {s : σ} {u : τ} {more : List Ev} (h : trace u = trace s ++ more) :
    ((crlfNext c s).1 = some (.error .unexpectedEof) ∧ trace (crlfNext c s).2 = []) ∨
    ((crlfNext c u).1 = (crlfNext c s).1 ∧ trace (crlfNext c u).2 = trace (crlfNext c s).2 ++ more) := by
  have hi := innerNext_more (c := c) h
  unfold crlfNext
  rcases h1 : innerNext c s with ⟨r1, s1⟩
  rcases h2 : innerNext c u with ⟨r2, u1⟩
  rw [h1, h2] at hi
  rcases hi with ⟨rfl, h3⟩ | ⟨rfl, h3⟩
  · exact .inl ⟨rfl, h3⟩
  · right; rcases r2 with e | _ | l <;> exact ⟨rfl, h3⟩

theorem expectNext_more {c : Cfg} {s : σ} {u : τ} {more : List Ev} (h : trace u = trace s ++ more) :
    ((expectNext c s).1 = .error .unexpectedEof ∧ trace (expectNext c s).2 = []) ∨
    ((expectNext c u).1 = (expectNext c s).1 ∧ trace (expectNext c u).2 = trace (expectNext c s).2 ++ more) := by
  have hi := innerNext_more (c := c) h
  unfold expectNext
  rcases h1 : innerNext c s with ⟨r1, s1⟩
  rcases h2 : innerNext c u with ⟨r2, u1⟩
  rw [h1, h2] at hi
  rcases hi with ⟨rfl, h3⟩ | ⟨rfl, h3⟩
  · exact .inl ⟨rfl, h3⟩
  · right; rcases r2 with e | _ | l <;> exact ⟨rfl, h3⟩

/-- What is gathered begins with the line, and is text. -/
theorem gather_text (c : Cfg) (line : Bytes) (s : σ) (hl : IsText line) :
    (∃ more, (HttpHeaders.gather c line s).1 = line ++ more) ∧ IsText (HttpHeaders.gather c line s).1 ∧
    ∀ n, (HttpHeaders.gather c line s).2.1 = some (.ok n) → IsText n := by
  fun_induction HttpHeaders.gather c line s with
  | case1 line s next s1 hc hb ih =>
    have hr := (crlfNext_ok_inv hc).1.2.2
    obtain ⟨⟨more, h1⟩, h2⟩ := ih (isText_append hl hr)
    exact ⟨⟨next ++ more, by rw [h1]; simp⟩, h2⟩
  | case2 line s next s1 hc hb =>
    have hr := (crlfNext_ok_inv hc).1.2.2
    exact ⟨⟨[], by simp⟩, hl, fun n hn => by simp only [Option.some.injEq, Except.ok.injEq] at hn; rw [← hn]; exact hr⟩
  | case3 line s item s1 hno hc => exact ⟨⟨[], by simp⟩, hl, fun n hn => absurd hn (hno n)⟩

theorem gather_more {c : Cfg} {line : Bytes} {s : σ} {u : τ} {more : List Ev} (h : trace u = trace s ++ more) (hl : IsText line) :
    ((HttpHeaders.gather c line s).2.1 = some (.error .unexpectedEof) ∧ trace (HttpHeaders.gather c line s).2.2 = [] ∧
      ∃ x, (HttpHeaders.gather c line u).1 = (HttpHeaders.gather c line s).1 ++ x) ∨
    ((HttpHeaders.gather c line u).1 = (HttpHeaders.gather c line s).1 ∧
      (HttpHeaders.gather c line u).2.1 = (HttpHeaders.gather c line s).2.1 ∧
      trace (HttpHeaders.gather c line u).2.2 = trace (HttpHeaders.gather c line s).2.2 ++ more) := by
  fun_induction HttpHeaders.gather c line s generalizing u with
  | case1 line s next s' hc hb ih =>
    have hs := crlfNext_more (c := c) h
    rw [hc] at hs
    rcases hu : crlfNext c u with ⟨r, u'⟩
    rw [hu] at hs
    rcases hs with ⟨h1, _⟩ | ⟨rfl, h2⟩
    · simp at h1
    have hg : HttpHeaders.gather c line u = HttpHeaders.gather c (line ++ next) u' := by
      conv => lhs; unfold HttpHeaders.gather
      split
      · rename_i heq; rw [hu] at heq; cases heq; rw [if_pos hb]
      · rename_i hno heq; rw [hu] at heq; cases heq; exact absurd rfl (hno _)
    rw [hg]; exact ih h2 (isText_append hl (crlfNext_ok_inv hc).1.2.2)
  | case2 line s next s' hc hb =>
    have hs := crlfNext_more (c := c) h
    rw [hc] at hs
    rcases hu : crlfNext c u with ⟨r, u'⟩
    rw [hu] at hs
    rcases hs with ⟨h1, _⟩ | ⟨rfl, h2⟩
    · simp at h1
    have hg : HttpHeaders.gather c line u = (line, some (.ok next), u') := by
      unfold HttpHeaders.gather
      split
      · rename_i heq; rw [hu] at heq; cases heq; rw [if_neg hb]
      · rename_i hno heq; rw [hu] at heq; cases heq; exact absurd rfl (hno _)
    rw [hg]; exact .inr ⟨rfl, rfl, h2⟩
  | case3 line s item s' hno hc =>
    have hs := crlfNext_more (c := c) h
    rw [hc] at hs
    rcases hu : crlfNext c u with ⟨r, u'⟩
    rw [hu] at hs
    rcases hs with ⟨rfl, h2⟩ | ⟨rfl, h2⟩
    · obtain ⟨x, hx⟩ := (gather_text c line u hl).1
      exact .inl ⟨rfl, h2, x, hx⟩
    · have hg : HttpHeaders.gather c line u = (line, r, u') := by
        unfold HttpHeaders.gather
        split
        · rename_i heq; rw [hu] at heq; cases heq; exact absurd rfl (hno _)
        · rename_i heq; rw [hu] at heq; cases heq; rfl
      rw [hg]; exact .inr ⟨rfl, rfl, h2⟩

variable [CaseMap]

/-- More text behind a header line that panics. -/
theorem header_panic_more {l x : Bytes} (hl : IsText l) (hx : IsText (l ++ x)) (h : HttpHeader.deserialize l = .panic) :
    HttpHeader.deserialize (l ++ x) = .panic := by
  obtain ⟨k, b, rest, rfl, h2, h3⟩ := (HttpHeader.deserialize_panic_iff ((validUtf8_iff _).2 hl)).1 h
  exact (HttpHeader.deserialize_panic_iff ((validUtf8_iff _).2 hx)).2 ⟨k, b, rest ++ x, by simp, h2, h3⟩

theorem header_err_kind {l : Bytes} {e : Err} (h : HttpHeader.deserialize l = .err e) : e = .unexpectedEof ∨ e = .parse := by
  unfold HttpHeader.deserialize at h
  rcases h1 : (Parser.new l).parseUntil b!":" with ⟨k | e' | _, p1⟩ <;> rw [h1] at h <;>
    simp only [Res.err.injEq, reduceCtorEq] at h
  · rcases h2 : p1.expect b!": " with ⟨_ | e' | _, p2⟩ <;> rw [h2] at h <;> simp only [Res.err.injEq, reduceCtorEq] at h
    · rcases h3 : p2.parseRemaining with ⟨v | e' | _, p3⟩ <;> rw [h3] at h <;> simp only [Res.err.injEq, reduceCtorEq] at h
      subst h
      unfold Parser.parseRemaining at h3
      repeat' split at h3
      all_goals first
        | (rename_i hs; exact absurd hs sliceFrom_ne_err)
        | (rename_i hs; exact absurd hs slice_ne_err)
        | simp_all
    · subst h
      unfold Parser.expect at h2
      repeat' split at h2
      all_goals first
        | (rename_i hs; exact absurd hs sliceFrom_ne_err)
        | (rename_i hs; exact absurd hs slice_ne_err)
        | simp_all
  · subst h
    unfold Parser.parseUntil at h1
    repeat' split at h1
    all_goals first
        | (rename_i hs; exact absurd hs sliceFrom_ne_err)
        | (rename_i hs; exact absurd hs slice_ne_err)
        | simp_all

/-- The end of the stream was met, and that is reported, or a line that was not one (yet). -/
def Open {α β : Type} : Res α → List β → Prop
  | .err e, [] => e = .unexpectedEof ∨ e = .parse
  | _, _ => False

theorem Open.other {α γ β : Type} {e : Err} {l : List β} (h : Open (.err e : Res α) l) : Open (.err e : Res γ) l := by
  cases l <;> exact h

theorem deserializeLoop_more {c : Cfg} {item : Option (Except Err Bytes)} {acc : List HttpHeader} {s : σ} {u : τ} {more : List Ev}
    (h : trace u = trace s ++ more) (hi : ∀ l, item = some (.ok l) → IsText l) :
    Open (HttpHeaders.deserializeLoop c item acc s).1 (trace (HttpHeaders.deserializeLoop c item acc s).2) ∨
    ((HttpHeaders.deserializeLoop c item acc u).1 = (HttpHeaders.deserializeLoop c item acc s).1 ∧
      ((HttpHeaders.deserializeLoop c item acc s).1 ≠ .panic →
        trace (HttpHeaders.deserializeLoop c item acc u).2 = trace (HttpHeaders.deserializeLoop c item acc s).2 ++ more)) := by
  fun_induction HttpHeaders.deserializeLoop c item acc s generalizing u with
  | case1 acc s => unfold HttpHeaders.deserializeLoop; exact .inr ⟨rfl, fun _ => h⟩
  | case2 acc s e => unfold HttpHeaders.deserializeLoop; exact .inr ⟨rfl, fun _ => h⟩
  | case3 acc s line line' item' s' hg hd hdes ih =>
    have hs := gather_more (c := c) (line := line) h (hi _ rfl)
    have ht := gather_text c line s (hi _ rfl)
    rw [hg] at hs ht
    rcases hu : HttpHeaders.gather c line u with ⟨l2, i2, u'⟩
    rw [hu] at hs
    rcases hs with ⟨h1, h2, _⟩ | ⟨rfl, rfl, h2⟩
    · dsimp only at h1 h2
      subst h1
      unfold HttpHeaders.deserializeLoop
      left
      dsimp only
      rw [h2]; exact .inl rfl
    have he : HttpHeaders.deserializeLoop c (some (.ok line)) acc u =
        HttpHeaders.deserializeLoop c i2 (acc ++ [hd]) u' := by
      conv => lhs; unfold HttpHeaders.deserializeLoop
      simp only [hu, hdes]
    rw [he]; exact ih h2 ht.2.2
  | case4 acc s line line' item' s' hg e hdes =>
    have hs := gather_more (c := c) (line := line) h (hi _ rfl)
    rw [hg] at hs
    rcases hu : HttpHeaders.gather c line u with ⟨l2, i2, u'⟩
    rw [hu] at hs
    rcases hs with ⟨h1, h2, _⟩ | ⟨rfl, rfl, h2⟩
    · left
      dsimp only at h2 ⊢
      rw [h2]
      exact header_err_kind hdes
    have he : HttpHeaders.deserializeLoop c (some (.ok line)) acc u = (.err e, u') := by
      unfold HttpHeaders.deserializeLoop
      simp only [hu, hdes]
    rw [he]; exact .inr ⟨rfl, fun _ => h2⟩
  | case5 acc s line line' item' s' hg hdes =>
    have hs := gather_more (c := c) (line := line) h (hi _ rfl)
    have ht := gather_text c line s (hi _ rfl)
    have ht' := gather_text c line u (hi _ rfl)
    rw [hg] at hs ht
    rcases hu : HttpHeaders.gather c line u with ⟨l2, i2, u'⟩
    rw [hu] at hs ht'
    have hp : HttpHeader.deserialize l2 = .panic := by
      rcases hs with ⟨_, _, x, hx⟩ | ⟨rfl, _⟩
      · dsimp only at hx
        subst hx
        exact header_panic_more ht.2.1 ht'.2.1 hdes
      · exact hdes
    have he : HttpHeaders.deserializeLoop c (some (.ok line)) acc u = (.panic, u') := by
      unfold HttpHeaders.deserializeLoop
      simp only [hu, hp]
    rw [he]; exact .inr ⟨rfl, fun hn => absurd rfl hn⟩

theorem headers_more {c : Cfg} {s : σ} {u : τ} {more : List Ev} (h : trace u = trace s ++ more) :
    Open (HttpHeaders.deserialize c s).1 (trace (HttpHeaders.deserialize c s).2) ∨
    ((HttpHeaders.deserialize c u).1 = (HttpHeaders.deserialize c s).1 ∧
      ((HttpHeaders.deserialize c s).1 ≠ .panic →
        trace (HttpHeaders.deserialize c u).2 = trace (HttpHeaders.deserialize c s).2 ++ more)) := by
  have hi := crlfNext_more (c := c) h
  unfold HttpHeaders.deserialize
  rcases h1 : crlfNext c s with ⟨r1, s1⟩
  rcases h2 : crlfNext c u with ⟨r2, u1⟩
  rw [h1, h2] at hi
  rcases hi with ⟨rfl, h3⟩ | ⟨rfl, h3⟩
  · left
    unfold HttpHeaders.deserializeLoop
    dsimp only at h3 ⊢
    rw [h3]; exact .inl rfl
  · have hl := deserializeLoop_more (c := c) (item := r2) (acc := []) h3 fun l hl => (crlfNext_ok_inv (hl ▸ h1)).1.2.2
    dsimp only
    rcases g1 : HttpHeaders.deserializeLoop c r2 [] s1 with ⟨q1, s2⟩
    rcases g2 : HttpHeaders.deserializeLoop c r2 [] u1 with ⟨q2, u2⟩
    rw [g1, g2] at hl
    rcases hl with hl | ⟨rfl, h4⟩
    · left
      dsimp only at hl
      cases q1 with
      | ok a => exact hl
      | err e => exact hl.other
      | panic => exact hl
    · right
      cases q2 with
      | ok a => exact ⟨rfl, fun _ => h4 (by simp)⟩
      | err e => exact ⟨rfl, fun _ => h4 (by simp)⟩
      | panic => exact ⟨rfl, fun hn => absurd rfl hn⟩

theorem parseHead_more {α : Type} {c : Cfg} {start : Bytes → Res α} {s : σ} {u : τ} {more : List Ev} (h : trace u = trace s ++ more) :
    Open (parseHead c start s).1 (trace (parseHead c start s).2) ∨
    ((parseHead c start u).1 = (parseHead c start s).1 ∧
      ((parseHead c start s).1 ≠ .panic → trace (parseHead c start u).2 = trace (parseHead c start s).2 ++ more)) := by
  have hi := expectNext_more (c := c) h
  unfold parseHead
  rcases h1 : expectNext c s with ⟨r1, s1⟩
  rcases h2 : expectNext c u with ⟨r2, u1⟩
  rw [h1, h2] at hi
  rcases hi with ⟨rfl, h3⟩ | ⟨rfl, h3⟩
  · left
    dsimp only at h3 ⊢
    rw [h3]; exact .inl rfl
  cases r2 with
  | error e => exact .inr ⟨rfl, fun _ => h3⟩
  | ok line =>
    dsimp only at h3 ⊢
    cases start line with
    | err e => exact .inr ⟨rfl, fun _ => h3⟩
    | panic => exact .inr ⟨rfl, fun hn => absurd rfl hn⟩
    | ok a =>
      have hh := headers_more (c := c) h3
      dsimp only
      rcases g1 : HttpHeaders.deserialize c s1 with ⟨q1, s2⟩
      rcases g2 : HttpHeaders.deserialize c u1 with ⟨q2, u2⟩
      rw [g1, g2] at hh
      rcases hh with hh | ⟨rfl, h4⟩
      · left
        dsimp only at hh
        cases q1 with
        | err e => exact hh.other
        | panic => exact hh.elim
        | ok a => exact hh.elim
      cases q2 with
      | err e => exact .inr ⟨rfl, fun _ => h4 (by simp)⟩
      | panic => exact .inr ⟨rfl, fun hn => absurd rfl hn⟩
      | ok hs =>
        dsimp only
        have h4 := h4 (by simp)
        cases contentLengthOf hs <;> exact .inr ⟨rfl, fun _ => h4⟩

theorem not_open {α β : Type} {r : Res α} {l : List β} (h : l ≠ [] ∨ r ≠ .err .unexpectedEof ∧ r ≠ .err .parse) : ¬ Open r l := by
  intro ho
  cases r with
  | ok a => exact ho
  | panic => exact ho
  | err e =>
    cases l with
    | cons => exact ho
    | nil =>
      rcases h with h | ⟨h1, h2⟩
      · exact h rfl
      · rcases ho with rfl | rfl
        · exact h1 rfl
        · exact h2 rfl

end


section
variable [CaseMap] {σ τ : Type} [LawfulReader σ] [LawfulReader τ]

/-! ### C158 -/

/-- What is said of a stream as a request is said of it whatever follows, and what follows is left: if something of the
stream itself is left, or if what is said is neither that the stream ends too soon nor that a line is not one. -/
theorem C158_request_partial (c : Cfg) (s : σ) (u : τ) (more : List Ev) (hu : trace u = trace s ++ more)
    (h : trace (HttpRequest.deserialize c s).2 ≠ [] ∨
      (HttpRequest.deserialize c s).1 ≠ .err .unexpectedEof ∧ (HttpRequest.deserialize c s).1 ≠ .err .parse) :
    SameOutcome (fun r r' => r.method = r'.method ∧ r.uri = r'.uri ∧ r.version = r'.version ∧ r.headers = r'.headers ∧
        framing r.body = framing r'.body)
      (HttpRequest.deserialize c s).1 (HttpRequest.deserialize c u).1 ∧
    ((HttpRequest.deserialize c s).1 ≠ .panic →
      trace (HttpRequest.deserialize c u).2 = trace (HttpRequest.deserialize c s).2 ++ more) := by
  have hp := parseHead_more (start := parseRequestLine) (c := c) hu
  have hn := not_open h
  clear h
  revert hn
  unfold HttpRequest.deserialize
  rcases h1 : parseHead c parseRequestLine s with ⟨r1, s1⟩
  rcases h2 : parseHead c parseRequestLine u with ⟨r2, u1⟩
  rw [h1, h2] at hp
  intro hn
  cases r1 with
  | err e =>
    dsimp only at hn hp ⊢
    rcases hp with hp | ⟨rfl, hp⟩
    · exact absurd hp.other hn
    · exact ⟨.err e, fun _ => hp (by simp)⟩
  | panic =>
    dsimp only at hp ⊢
    rcases hp with hp | ⟨rfl, hp⟩
    · exact hp.elim
    · exact ⟨.panic, fun hx => absurd rfl hx⟩
  | ok a =>
    obtain ⟨⟨m, p, v⟩, hs, enc, len⟩ := a
    dsimp only at hp ⊢
    rcases hp with hp | ⟨rfl, hp⟩
    · exact hp.elim
    · refine ⟨.ok ⟨rfl, rfl, rfl, rfl, ?_⟩, fun _ => hp (by simp)⟩
      unfold HttpBody.new
      split
      · rfl
      · split <;> rfl

/-- The same for a response. -/
theorem C158_response_partial (c : Cfg) (s : σ) (u : τ) (more : List Ev) (hu : trace u = trace s ++ more)
    (h : trace (HttpResponse.deserialize c s).2 ≠ [] ∨
      (HttpResponse.deserialize c s).1 ≠ .err .unexpectedEof ∧ (HttpResponse.deserialize c s).1 ≠ .err .parse) :
    SameOutcome (fun r r' => r.version = r'.version ∧ r.status = r'.status ∧ r.headers = r'.headers ∧
        framing r.body = framing r'.body)
      (HttpResponse.deserialize c s).1 (HttpResponse.deserialize c u).1 ∧
    ((HttpResponse.deserialize c s).1 ≠ .panic →
      trace (HttpResponse.deserialize c u).2 = trace (HttpResponse.deserialize c s).2 ++ more) := by
  have hp := parseHead_more (start := parseStatusLine) (c := c) hu
  have hn := not_open h
  clear h
  revert hn
  unfold HttpResponse.deserialize
  rcases h1 : parseHead c parseStatusLine s with ⟨r1, s1⟩
  rcases h2 : parseHead c parseStatusLine u with ⟨r2, u1⟩
  rw [h1, h2] at hp
  intro hn
  cases r1 with
  | err e =>
    dsimp only at hn hp ⊢
    rcases hp with hp | ⟨rfl, hp⟩
    · exact absurd hp.other hn
    · exact ⟨.err e, fun _ => hp (by simp)⟩
  | panic =>
    dsimp only at hp ⊢
    rcases hp with hp | ⟨rfl, hp⟩
    · exact hp.elim
    · exact ⟨.panic, fun hx => absurd rfl hx⟩
  | ok a =>
    obtain ⟨⟨v, st⟩, hs, enc, len⟩ := a
    dsimp only at hp ⊢
    rcases hp with hp | ⟨rfl, hp⟩
    · exact hp.elim
    · refine ⟨.ok ⟨rfl, rfl, rfl, ?_⟩, fun _ => hp (by simp)⟩
      unfold HttpBody.new
      split
      · rfl
      · split <;> rfl

end

/-- Witness for `C158_request_partial` and `C158_response_partial`: a head that is accepted with nothing behind it, one that is
refused for its first line, with more behind it, and one after which the connection fails; for both, the hypothesis holds. -/
example : let _ := asciiCase
    (match HttpRequest.deserialize ⟨true⟩ (Wire.mk [.data b!"GET / HTTP/1.1\r\nFoo:\r\n bar\r\n\r\n"]) with
      | (.ok _, s) => decide (trace s = [])
      | _ => false) = true ∧
    (match HttpRequest.deserialize ⟨true⟩ (Wire.mk [.data b!"GET\r\nFoo: bar\r\n"]) with
      | (.err .unexpectedEof, s) => decide (trace s = (b!"Foo: bar\r\n").map .byte)
      | _ => false) = true ∧
    (match HttpResponse.deserialize ⟨false⟩ (Wire.mk [.data b!"HTTP/1.1 200 OK\r\nFoo", .fault (.io (.other 3))]) with
      | (.err (.io (.other 3)), s) => decide (trace s = [])
      | _ => false) = true := by
  decide +kernel

theorem verdict_request (c : Cfg) : let _ := asciiCase
    ((match (HttpRequest.deserialize c (Wire.mk [.data b!"GET / HTTP/1.1\r\nFoo:\r\n"])).1 with
        | .err .parse => true
        | _ => false) &&
      match (HttpRequest.deserialize c (Wire.mk [.data b!"GET / HTTP/1.1\r\nFoo:\r\n", .data b!" bar\r\n\r\n"])).1 with
        | .ok r => r.headers.entries == [(b!"foo", b!"bar")]
        | _ => false) = true := by
  rcases c with ⟨_ | _⟩ <;> decide +kernel

theorem verdict_response (c : Cfg) : let _ := asciiCase
    ((match (HttpResponse.deserialize c (Wire.mk [.data b!"HTTP/1.1 200 OK\r\nFoo:\r\n"])).1 with
        | .err .parse => true
        | _ => false) &&
      match (HttpResponse.deserialize c (Wire.mk [.data b!"HTTP/1.1 200 OK\r\nFoo:\r\n", .data b!" bar\r\n\r\n"])).1 with
        | .ok r => r.headers.entries == [(b!"foo", b!"bar")]
        | _ => false) = true := by
  rcases c with ⟨_ | _⟩ <;> decide +kernel

/-- The property is false: a last line that is no header is refused where the stream ends, although the line could go on. With
more of the stream it does, and the head is accepted; for a request and for a response. -/
theorem C158_final_false (c : Cfg) : let _ := asciiCase
    (¬ ∀ (s u : Wire) (more : List Ev), trace u = trace s ++ more →
      (HttpRequest.deserialize c s).1 ≠ .err .unexpectedEof →
      SameOutcome (fun _ _ => True) (HttpRequest.deserialize c s).1 (HttpRequest.deserialize c u).1) ∧
    (¬ ∀ (s u : Wire) (more : List Ev), trace u = trace s ++ more →
      (HttpResponse.deserialize c s).1 ≠ .err .unexpectedEof →
      SameOutcome (fun _ _ => True) (HttpResponse.deserialize c s).1 (HttpResponse.deserialize c u).1) := by
  intro _
  constructor
  · intro h
    have key := verdict_request c
    rw [Bool.and_eq_true] at key
    have h1 := h (Wire.mk [.data b!"GET / HTTP/1.1\r\nFoo:\r\n"])
      (Wire.mk [.data b!"GET / HTTP/1.1\r\nFoo:\r\n", .data b!" bar\r\n\r\n"]) _ rfl
    generalize HttpRequest.deserialize c (Wire.mk [.data b!"GET / HTTP/1.1\r\nFoo:\r\n"]) = x at key h1
    generalize HttpRequest.deserialize c (Wire.mk [.data b!"GET / HTTP/1.1\r\nFoo:\r\n", .data b!" bar\r\n\r\n"]) = y at key h1
    rcases x with ⟨_ | e | _, _⟩
    · simp at key
    · have h2 := h1 (by intro he; simp only [Res.err.injEq] at he; subst he; simp at key)
      rcases y with ⟨_ | _ | _, _⟩
      · cases h2
      · simp at key
      · simp at key
    · simp at key
  · intro h
    have key := verdict_response c
    rw [Bool.and_eq_true] at key
    have h1 := h (Wire.mk [.data b!"HTTP/1.1 200 OK\r\nFoo:\r\n"])
      (Wire.mk [.data b!"HTTP/1.1 200 OK\r\nFoo:\r\n", .data b!" bar\r\n\r\n"]) _ rfl
    generalize HttpResponse.deserialize c (Wire.mk [.data b!"HTTP/1.1 200 OK\r\nFoo:\r\n"]) = x at key h1
    generalize HttpResponse.deserialize c (Wire.mk [.data b!"HTTP/1.1 200 OK\r\nFoo:\r\n", .data b!" bar\r\n\r\n"]) = y at key h1
    rcases x with ⟨_ | e | _, _⟩
    · simp at key
    · have h2 := h1 (by intro he; simp only [Res.err.injEq] at he; subst he; simp at key)
      rcases y with ⟨_ | _ | _, _⟩
      · cases h2
      · simp at key
      · simp at key
    · simp at key

end HttpIo
