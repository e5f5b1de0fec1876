import Verif.Lemmas.Headers
import Verif.Props.Lines
import Verif.Model.Message

/-! Message heads: what parsing consumes, and that nothing else matters. -/

namespace HttpIo
open Spec

/-! ### Simulation: only the trace matters -/

section
variable {σ τ : Type} [LawfulReader σ] [LawfulReader τ]

theorem innerNext_sim {c : Cfg} {s : σ} {u : τ} (h : trace s = trace u) :
    (innerNext c s).1 = (innerNext c u).1 ∧ trace (innerNext c s).2 = trace (innerNext c u).2 := by
  have h1 := innerNextLoop_trace c [] s
  have h2 := innerNextLoop_trace c [] u
  rw [h, ← h2] at h1
  simpa [innerNext] using h1

theorem crlfNext_sim {c : Cfg} {s : σ} {u : τ} (h : trace s = trace u) :
    (crlfNext c s).1 = (crlfNext c u).1 ∧ trace (crlfNext c s).2 = trace (crlfNext c u).2 := by
  have hi := innerNext_sim (c := c) h
  unfold crlfNext
  rcases h1 : innerNext c s with ⟨r1, s1⟩
  rcases h2 : innerNext c u with ⟨r2, u1⟩
  rw [h1, h2] at hi
  obtain ⟨rfl, h3⟩ := hi
  rcases r1 with e | _ | l <;> exact ⟨rfl, h3⟩

theorem expectNext_sim {c : Cfg} {s : σ} {u : τ} (h : trace s = trace u) :
    (expectNext c s).1 = (expectNext c u).1 ∧ trace (expectNext c s).2 = trace (expectNext c u).2 := by
  have hi := innerNext_sim (c := c) h
  unfold expectNext
  rcases h1 : innerNext c s with ⟨r1, s1⟩
  rcases h2 : innerNext c u with ⟨r2, u1⟩
  rw [h1, h2] at hi
  obtain ⟨rfl, h3⟩ := hi
  rcases r1 with e | _ | l <;> exact ⟨rfl, h3⟩

theorem gather_sim {c : Cfg} {line : Bytes} {s : σ} {u : τ} (h : trace s = trace u) :
    (HttpHeaders.gather c line s).1 = (HttpHeaders.gather c line u).1 ∧
    (HttpHeaders.gather c line s).2.1 = (HttpHeaders.gather c line u).2.1 ∧
    trace (HttpHeaders.gather c line s).2.2 = trace (HttpHeaders.gather c line u).2.2 := by
  fun_induction HttpHeaders.gather c line s generalizing u with
  | case1 line s next s' hc hb ih =>
    have hs := crlfNext_sim (c := c) h
    rw [hc] at hs
    rcases hu : crlfNext c u with ⟨r, u'⟩
    rw [hu] at hs
    obtain ⟨rfl, h2⟩ := hs
    have hg : HttpHeaders.gather c line u = HttpHeaders.gather c (line ++ next) u' := by
      conv => lhs; unfold HttpHeaders.gather
      split
      · rename_i heq; rw [hu] at heq; cases heq; rw [if_pos hb]
      · rename_i hno heq; rw [hu] at heq; cases heq; exact absurd rfl (hno _)
    rw [hg]; exact ih h2
  | case2 line s next s' hc hb =>
    have hs := crlfNext_sim (c := c) h
    rw [hc] at hs
    rcases hu : crlfNext c u with ⟨r, u'⟩
    rw [hu] at hs
    obtain ⟨rfl, h2⟩ := hs
    have hg : HttpHeaders.gather c line u = (line, some (.ok next), u') := by
      unfold HttpHeaders.gather
      split
      · rename_i heq; rw [hu] at heq; cases heq; rw [if_neg hb]
      · rename_i hno heq; rw [hu] at heq; cases heq; exact absurd rfl (hno _)
    rw [hg]; exact ⟨rfl, rfl, h2⟩
  | case3 line s item s' hno hc =>
    have hs := crlfNext_sim (c := c) h
    rw [hc] at hs
    rcases hu : crlfNext c u with ⟨r, u'⟩
    rw [hu] at hs
    obtain ⟨rfl, h2⟩ := hs
    have hg : HttpHeaders.gather c line u = (line, item, u') := by
      unfold HttpHeaders.gather
      split
      · rename_i heq; rw [hu] at heq; cases heq; exact absurd rfl (hno _)
      · rename_i heq; rw [hu] at heq; cases heq; rfl
    rw [hg]; exact ⟨rfl, rfl, h2⟩

variable [CaseMap]

theorem deserializeLoop_sim {c : Cfg} {item : Option (Except Err Bytes)} {acc : List HttpHeader} {s : σ} {u : τ}
    (h : trace s = trace u) :
    (HttpHeaders.deserializeLoop c item acc s).1 = (HttpHeaders.deserializeLoop c item acc u).1 ∧
    trace (HttpHeaders.deserializeLoop c item acc s).2 = trace (HttpHeaders.deserializeLoop c item acc u).2 := by
  fun_induction HttpHeaders.deserializeLoop c item acc s generalizing u with
  | case1 acc s => unfold HttpHeaders.deserializeLoop; exact ⟨rfl, h⟩
  | case2 acc s e => unfold HttpHeaders.deserializeLoop; exact ⟨rfl, h⟩
  | case3 acc s line line' item' s' hg hd hdes ih =>
    have hs := gather_sim (c := c) (line := line) h
    rw [hg] at hs
    rcases hu : HttpHeaders.gather c line u with ⟨l2, i2, u'⟩
    rw [hu] at hs
    obtain ⟨rfl, rfl, h2⟩ := hs
    have he : HttpHeaders.deserializeLoop c (some (.ok line)) acc u =
        HttpHeaders.deserializeLoop c item' (acc ++ [hd]) u' := by
      conv => lhs; unfold HttpHeaders.deserializeLoop
      simp only [hu, hdes]
    rw [he]; exact ih h2
  | case4 acc s line line' item' s' hg e hdes =>
    have hs := gather_sim (c := c) (line := line) h
    rw [hg] at hs
    rcases hu : HttpHeaders.gather c line u with ⟨l2, i2, u'⟩
    rw [hu] at hs
    obtain ⟨rfl, rfl, h2⟩ := hs
    have he : HttpHeaders.deserializeLoop c (some (.ok line)) acc u = (.err e, u') := by
      unfold HttpHeaders.deserializeLoop
      simp only [hu, hdes]
    rw [he]; exact ⟨rfl, h2⟩
  | case5 acc s line line' item' s' hg hdes =>
    have hs := gather_sim (c := c) (line := line) h
    rw [hg] at hs
    rcases hu : HttpHeaders.gather c line u with ⟨l2, i2, u'⟩
    rw [hu] at hs
    obtain ⟨rfl, rfl, h2⟩ := hs
    have he : HttpHeaders.deserializeLoop c (some (.ok line)) acc u = (.panic, u') := by
      unfold HttpHeaders.deserializeLoop
      simp only [hu, hdes]
    rw [he]; exact ⟨rfl, h2⟩

theorem headers_sim {c : Cfg} {s : σ} {u : τ} (h : trace s = trace u) :
    (HttpHeaders.deserialize c s).1 = (HttpHeaders.deserialize c u).1 ∧
    trace (HttpHeaders.deserialize c s).2 = trace (HttpHeaders.deserialize c u).2 := by
  have hi := crlfNext_sim (c := c) h
  unfold HttpHeaders.deserialize
  rcases h1 : crlfNext c s with ⟨r1, s1⟩
  rcases h2 : crlfNext c u with ⟨r2, u1⟩
  rw [h1, h2] at hi
  obtain ⟨rfl, h3⟩ := hi
  have hl := deserializeLoop_sim (c := c) (item := r1) (acc := []) h3
  dsimp only
  rcases g1 : HttpHeaders.deserializeLoop c r1 [] s1 with ⟨q1, s2⟩
  rcases g2 : HttpHeaders.deserializeLoop c r1 [] u1 with ⟨q2, u2⟩
  rw [g1, g2] at hl
  obtain ⟨rfl, h4⟩ := hl
  cases q1 <;> exact ⟨rfl, h4⟩

theorem parseHead_sim {α : Type} {c : Cfg} {start : Bytes → Res α} {s : σ} {u : τ} (h : trace s = trace u) :
    (parseHead c start s).1 = (parseHead c start u).1 ∧
    trace (parseHead c start s).2 = trace (parseHead c start u).2 := by
  have hi := expectNext_sim (c := c) h
  unfold parseHead
  rcases h1 : expectNext c s with ⟨r1, s1⟩
  rcases h2 : expectNext c u with ⟨r2, u1⟩
  rw [h1, h2] at hi
  obtain ⟨rfl, h3⟩ := hi
  cases r1 with
  | error e => exact ⟨rfl, h3⟩
  | ok line =>
    dsimp only at h3 ⊢
    cases start line with
    | err e => exact ⟨rfl, h3⟩
    | panic => exact ⟨rfl, h3⟩
    | ok a =>
      have hh := headers_sim (c := c) h3
      dsimp only
      rcases g1 : HttpHeaders.deserialize c s1 with ⟨q1, s2⟩
      rcases g2 : HttpHeaders.deserialize c u1 with ⟨q2, u2⟩
      rw [g1, g2] at hh
      obtain ⟨rfl, h4⟩ := hh
      cases q1 with
      | err e => exact ⟨rfl, h4⟩
      | panic => exact ⟨rfl, h4⟩
      | ok hs =>
        dsimp only
        cases contentLengthOf hs <;> exact ⟨rfl, h4⟩

end

/-! ### What a successful parse has consumed -/

section
variable {σ : Type} [LawfulReader σ]

theorem crlfNext_ok_inv {c : Cfg} {s s' : σ} {l : Bytes} (h : crlfNext c s = (some (.ok l), s')) :
    RawLine l ∧ Delivers c (trace s) (l ++ [13, 10]) (trace s') := by
  rcases C08_total c (trace s) with ⟨l', t', h1, h2⟩ | ⟨l', m, h1, h2, h3⟩ | ⟨l', m, e, t', h1, h2, h3⟩
  · obtain ⟨g1, _, g3, g4, g5⟩ := C08_line c s l' t' h1 h2
    rw [h] at g1 g3 g4 g5
    by_cases hl : l' = []
    · have := (g3 hl).1; simp at this
    · by_cases ht : IsText l'
      · have := (g4 hl ht).1
        simp only [Option.some.injEq, Except.ok.injEq] at this
        subst this
        dsimp only at g1
        rw [g1]; exact ⟨⟨hl, h1, ht⟩, h2⟩
      · have := (g5 ht).1; simp at this
  · have := (C08_eof c s l' m h1 h2 h3).1
    rw [h] at this; simp at this
  · have := (C08_fault c s l' m e t' h1 h2 h3).1
    rw [h] at this; simp at this

theorem crlfNext_none_inv {c : Cfg} {s s' : σ} (h : crlfNext c s = (none, s')) :
    Delivers c (trace s) [13, 10] (trace s') := by
  rcases C08_total c (trace s) with ⟨l', t', h1, h2⟩ | ⟨l', m, h1, h2, h3⟩ | ⟨l', m, e, t', h1, h2, h3⟩
  · obtain ⟨g1, _, g3, g4, g5⟩ := C08_line c s l' t' h1 h2
    rw [h] at g1 g3 g4 g5
    by_cases hl : l' = []
    · subst hl; dsimp only at g1; rw [g1]; exact h2
    · by_cases ht : IsText l'
      · have := (g4 hl ht).1; simp at this
      · have := (g5 ht).1; simp at this
  · have := (C08_eof c s l' m h1 h2 h3).1
    rw [h] at this; simp at this
  · have := (C08_fault c s l' m e t' h1 h2 h3).1
    rw [h] at this; simp at this

theorem expectNext_ok_inv {c : Cfg} {s s' : σ} {l : Bytes} (h : expectNext c s = (.ok l, s')) :
    RawLine l ∧ Delivers c (trace s) (l ++ [13, 10]) (trace s') := by
  apply crlfNext_ok_inv
  unfold expectNext at h
  unfold crlfNext
  rcases h1 : innerNext c s with ⟨r1, s1⟩
  rw [h1] at h
  rcases r1 with e | _ | l' <;> simp_all

theorem gather_inv {c : Cfg} {line line' : Bytes} {item : Option (Except Err Bytes)} {s s' : σ}
    (h : HttpHeaders.gather c line s = (line', item, s')) :
    (item = none → ∃ conts : List Bytes, (∀ l ∈ conts, RawLine l) ∧
      Delivers c (trace s) (conts.flatMap (· ++ [13, 10]) ++ [13, 10]) (trace s')) ∧
    (∀ n, item = some (.ok n) → ∃ conts : List Bytes, (∀ l ∈ conts, RawLine l) ∧ RawLine n ∧
      Delivers c (trace s) (conts.flatMap (· ++ [13, 10]) ++ (n ++ [13, 10])) (trace s')) := by
  fun_induction HttpHeaders.gather c line s with
  | case1 line s next s1 hc hb ih =>
    obtain ⟨hr, hd⟩ := crlfNext_ok_inv hc
    obtain ⟨i1, i2⟩ := ih h
    refine ⟨fun hi => ?_, fun n hn => ?_⟩
    · obtain ⟨conts, g1, g2⟩ := i1 hi
      refine ⟨next :: conts, ?_, ?_⟩
      · intro l hl
        simp only [List.mem_cons] at hl
        rcases hl with rfl | hl
        · exact hr
        · exact g1 l hl
      · rw [List.flatMap_cons, List.append_assoc]; exact hd.append g2
    · obtain ⟨conts, g1, g2, g3⟩ := i2 n hn
      refine ⟨next :: conts, ?_, g2, ?_⟩
      · intro l hl
        simp only [List.mem_cons] at hl
        rcases hl with rfl | hl
        · exact hr
        · exact g1 l hl
      · rw [List.flatMap_cons, List.append_assoc]; exact hd.append g3
  | case2 line s next s1 hc hb =>
    obtain ⟨hr, hd⟩ := crlfNext_ok_inv hc
    simp only [Prod.mk.injEq] at h
    obtain ⟨_, rfl, rfl⟩ := h
    refine ⟨by simp, fun n hn => ?_⟩
    simp only [Option.some.injEq, Except.ok.injEq] at hn
    subst hn
    exact ⟨[], by simp, hr, by simpa using hd⟩
  | case3 line s item1 s1 hno hc =>
    simp only [Prod.mk.injEq] at h
    obtain ⟨_, rfl, rfl⟩ := h
    refine ⟨?_, fun n hn => absurd hn (hno n)⟩
    rintro rfl
    exact ⟨[], by simp, by simpa using crlfNext_none_inv hc⟩

variable [CaseMap]

theorem deserializeLoop_inv {c : Cfg} {item : Option (Except Err Bytes)} {acc hs : List HttpHeader} {s s' : σ}
    (h : HttpHeaders.deserializeLoop c item acc s = (.ok hs, s')) :
    (item = none → trace s' = trace s) ∧
    (∀ l, item = some (.ok l) → ∃ lines : List Bytes, (∀ l ∈ lines, RawLine l) ∧
      Delivers c (trace s) (blockBytes lines) (trace s')) := by
  fun_induction HttpHeaders.deserializeLoop c item acc s with
  | case1 acc s => simp only [Prod.mk.injEq] at h; rw [h.2]; simp
  | case2 acc s e => simp at h
  | case3 acc s line line' item' s1 hg hd hdes ih =>
    refine ⟨by simp, fun l _ => ?_⟩
    obtain ⟨i1, i2⟩ := ih h
    obtain ⟨g1, g2⟩ := gather_inv hg
    rcases hi : item' with _ | (e | n)
    · obtain ⟨conts, k1, k2⟩ := g1 hi
      refine ⟨conts, k1, ?_⟩
      rw [i1 hi]; exact k2
    · rw [hi] at h; unfold HttpHeaders.deserializeLoop at h; simp at h
    · obtain ⟨conts, k1, k2, k3⟩ := g2 n hi
      obtain ⟨lines, m1, m2⟩ := i2 n hi
      refine ⟨conts ++ n :: lines, ?_, ?_⟩
      · intro l hl
        simp only [List.mem_append, List.mem_cons] at hl
        rcases hl with hl | rfl | hl
        · exact k1 l hl
        · exact k2
        · exact m1 l hl
      · have := k3.append m2
        unfold blockBytes at this ⊢
        simpa using this
  | case4 acc s line line' item' s1 hg e hdes => simp at h
  | case5 acc s line line' item' s1 hg hdes => simp at h

theorem headers_inv {c : Cfg} {s s' : σ} {hs : HttpHeaders} (h : HttpHeaders.deserialize c s = (.ok hs, s')) :
    ∃ lines : List Bytes, (∀ l ∈ lines, RawLine l) ∧ Delivers c (trace s) (blockBytes lines) (trace s') := by
  unfold HttpHeaders.deserialize at h
  rcases h1 : crlfNext c s with ⟨item, s1⟩
  rw [h1] at h
  dsimp only at h
  rcases h2 : HttpHeaders.deserializeLoop c item [] s1 with ⟨q, s2⟩
  rw [h2] at h
  cases q with
  | err e => simp at h
  | panic => simp at h
  | ok l =>
    simp only [Prod.mk.injEq] at h
    obtain ⟨_, rfl⟩ := h
    obtain ⟨i1, i2⟩ := deserializeLoop_inv h2
    rcases item with _ | (e | n)
    · refine ⟨[], by simp, ?_⟩
      rw [i1 rfl]; exact crlfNext_none_inv h1
    · unfold HttpHeaders.deserializeLoop at h2; simp at h2
    · obtain ⟨hr, hd⟩ := crlfNext_ok_inv h1
      obtain ⟨lines, m1, m2⟩ := i2 n rfl
      refine ⟨n :: lines, ?_, ?_⟩
      · intro l hl
        simp only [List.mem_cons] at hl
        rcases hl with rfl | hl
        · exact hr
        · exact m1 l hl
      · have := hd.append m2
        unfold blockBytes at this ⊢
        simpa using this

theorem parseHead_inv {α : Type} {c : Cfg} {start : Bytes → Res α} {s s' : σ} {r}
    (h : parseHead c start s = (.ok r, s')) :
    ∃ (line : Bytes) (lines : List Bytes), RawLine line ∧ (∀ l ∈ lines, RawLine l) ∧
      start line = .ok r.1 ∧ Delivers c (trace s) (blockBytes (line :: lines)) (trace s') := by
  unfold parseHead at h
  rcases h1 : expectNext c s with ⟨r1, s1⟩
  rw [h1] at h
  cases r1 with
  | error e => simp at h
  | ok line =>
    obtain ⟨hr, hd⟩ := expectNext_ok_inv h1
    dsimp only at h
    cases hst : start line with
    | err e => rw [hst] at h; simp at h
    | panic => rw [hst] at h; simp at h
    | ok a =>
      rw [hst] at h
      dsimp only at h
      rcases h2 : HttpHeaders.deserialize c s1 with ⟨q, s2⟩
      rw [h2] at h
      cases q with
      | err e => simp at h
      | panic => simp at h
      | ok hs =>
        obtain ⟨lines, m1, m2⟩ := headers_inv h2
        dsimp only at h
        cases hcl : contentLengthOf hs with
        | err e => rw [hcl] at h; simp at h
        | panic => rw [hcl] at h; simp at h
        | ok n =>
          rw [hcl] at h
          simp only [Prod.mk.injEq, Res.ok.injEq] at h
          obtain ⟨rfl, rfl⟩ := h
          refine ⟨line, lines, hr, m1, hst, ?_⟩
          have := hd.append m2
          unfold blockBytes at this ⊢
          simpa using this

end

/-! ### What a head delivers, forward -/

/-- Every list of lines unfolds. -/
theorem folded_exists (raw : List Bytes) : ∃ logical, Folded raw logical := by
  have main : ∀ n (raw : List Bytes), raw.length ≤ n → ∃ logical, Folded raw logical := by
    intro n
    induction n with
    | zero => intro raw h; cases raw with
      | nil => exact ⟨[], .nil⟩
      | cons => simp at h
    | succ n ih =>
      intro raw h
      cases raw with
      | nil => exact ⟨[], .nil⟩
      | cons first tl =>
        have hsplit : ∀ tl : List Bytes, ∃ conts rest, tl = conts ++ rest ∧ (∀ l ∈ conts, StartsBlank l) ∧
            ∀ l, rest.head? = some l → ¬ StartsBlank l := by
          intro tl
          induction tl with
          | nil => exact ⟨[], [], rfl, by simp, by simp⟩
          | cons x tl ihx =>
            by_cases hx : StartsBlank x
            · obtain ⟨conts, rest, rfl, h1, h2⟩ := ihx
              refine ⟨x :: conts, rest, rfl, ?_, h2⟩
              intro l hl
              simp only [List.mem_cons] at hl
              rcases hl with rfl | hl
              · exact hx
              · exact h1 l hl
            · refine ⟨[], x :: tl, rfl, by simp, ?_⟩
              intro l hl
              simp only [List.head?_cons, Option.some.injEq] at hl
              rw [← hl]; exact hx
        obtain ⟨conts, rest, rfl, h1, h2⟩ := hsplit tl
        obtain ⟨logical, hf⟩ := ih rest (by simp at h; omega)
        exact ⟨_, .line h1 h2 hf⟩
  exact main raw.length raw (Nat.le_refl _)

/-- What `parseHead` computes from the lines of a head. -/
def headOutcome [CaseMap] {α : Type} (start : Bytes → Res α) (line : Bytes) (logical : List Bytes) :
    Res (α × HttpHeaders × Option Bytes × Option Nat) :=
  match start line with
  | .err e => .err e
  | .panic => .panic
  | .ok a =>
    match parseLines logical with
    | .err e => .err e
    | .panic => .panic
    | .ok hds =>
      match contentLengthOf (HttpHeaders.fromVec hds) with
      | .err e => .err e
      | .panic => .panic
      | .ok n => .ok (a, HttpHeaders.fromVec hds, (HttpHeaders.fromVec hds).get b!"Transfer-Encoding", n)

theorem parseHead_block [CaseMap] {σ : Type} [LawfulReader σ] {α : Type} {c : Cfg} {start : Bytes → Res α} {s : σ}
    {line : Bytes} {raw logical : List Bytes} {t' : List Ev} (hl : RawLine line) (hraw : ∀ l ∈ raw, RawLine l)
    (hf : Folded raw logical) (h : Delivers c (trace s) (blockBytes (line :: raw)) t') :
    (parseHead c start s).1 = headOutcome start line logical ∧
      ((∃ a hds, start line = .ok a ∧ parseLines logical = .ok hds) → trace (parseHead c start s).2 = t') := by
  have hb : blockBytes (line :: raw) = (line ++ [13, 10]) ++ blockBytes raw := by simp [blockBytes]
  rw [hb] at h
  obtain ⟨m, hm1, hm2⟩ := h.split
  obtain ⟨s1, h1, h2⟩ := expectNext_line hl hm1
  unfold parseHead headOutcome
  rw [h1]
  dsimp only
  cases hst : start line with
  | err e => simp
  | panic => simp
  | ok a =>
    dsimp only
    obtain ⟨s2, h3, h4⟩ := deserialize_block hf hraw (s := s1) (by rw [h2]; exact hm2)
    rw [h3]
    cases hp : parseLines logical with
    | err e => simp [Res.map]
    | panic => simp [Res.map]
    | ok hds =>
      simp only [Res.map]
      cases contentLengthOf (HttpHeaders.fromVec hds) <;> exact ⟨rfl, fun _ => h4 _ hp⟩

end HttpIo
