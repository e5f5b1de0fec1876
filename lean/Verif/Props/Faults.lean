import Verif.Lemmas.Faults
import Verif.Props.Accept

/-! Which error a head gives that is not accepted (C188). -/

namespace HttpIo
open Spec

section
variable {σ : Type} [LawfulReader σ]

/-! ### Lines -/

/-- Exactly which error reading a line gives. -/
theorem crlfNext_err_iff (c : Cfg) (s : σ) (e : Err) : (crlfNext c s).1 = some (.error e) ↔ LineFault c (trace s) e := by
  constructor
  · intro h
    rcases C08_total c (trace s) with ⟨l, t', h1, h2⟩ | ⟨l, m, h1, h2, h3⟩ | ⟨l, m, e', t', h1, h2, h3⟩
    · obtain ⟨_, _, g3, g4, g5⟩ := C08_line c s l t' h1 h2
      by_cases hl : l = []
      · rw [(g3 hl).1] at h; simp at h
      by_cases ht : IsText l
      · rw [(g4 hl ht).1] at h; simp at h
      · rw [(g5 ht).1] at h
        simp only [Option.some.injEq, Except.error.injEq] at h
        subst h
        exact .noText h1 ht h2
    · rw [(C08_eof c s l m h1 h2 h3).1] at h
      simp only [Option.some.injEq, Except.error.injEq] at h
      subst h
      exact .ends h1 h2 h3
    · rw [(C08_fault c s l m e' t' h1 h2 h3).1] at h
      simp only [Option.some.injEq, Except.error.injEq] at h
      subst h
      exact .fails h1 h2 h3
  · intro h
    cases h with
    | ends h1 h2 h3 => exact (C08_eof c s _ _ h1 h2 h3).1
    | fails h1 h2 h3 => exact (C08_fault c s _ _ e _ h1 h2 h3).1
    | noText h1 h2 h3 => exact ((C08_line c s _ _ h1 h3).2.2.2.2 h2).1

/-- The same for a line that must be there. -/
theorem expectNext_err_iff (c : Cfg) (s : σ) (e : Err) : (expectNext c s).1 = .error e ↔
    LineFault c (trace s) e ∨ e = .unexpectedEof ∧ ∃ t', Delivers c (trace s) [13, 10] t' := by
  constructor
  · intro h
    rcases C08_total c (trace s) with ⟨l, t', h1, h2⟩ | ⟨l, m, h1, h2, h3⟩ | ⟨l, m, e', t', h1, h2, h3⟩
    · obtain ⟨_, _, g3, g4, g5⟩ := C08_line c s l t' h1 h2
      by_cases hl : l = []
      · subst hl
        rw [(g3 rfl).2] at h
        simp only [Except.error.injEq] at h
        exact .inr ⟨h.symm, t', h2⟩
      by_cases ht : IsText l
      · rw [(g4 hl ht).2] at h; simp at h
      · rw [(g5 ht).2] at h
        simp only [Except.error.injEq] at h
        subst h
        exact .inl (.noText h1 ht h2)
    · rw [(C08_eof c s l m h1 h2 h3).2.1] at h
      simp only [Except.error.injEq] at h
      subst h
      exact .inl (.ends h1 h2 h3)
    · rw [(C08_fault c s l m e' t' h1 h2 h3).2.1] at h
      simp only [Except.error.injEq] at h
      subst h
      exact .inl (.fails h1 h2 h3)
  · rintro (h | ⟨rfl, t', h⟩)
    · cases h with
      | ends h1 h2 h3 => exact (C08_eof c s _ _ h1 h2 h3).2.1
      | fails h1 h2 h3 => exact (C08_fault c s _ _ e _ h1 h2 h3).2.1
      | noText h1 h2 h3 => exact ((C08_line c s _ _ h1 h3).2.2.2.2 h2).2
    · exact ((C08_line c s [] t' (by unfold HasCrLf; simp) (by simpa using h)).2.2.1 rfl).2

theorem lineFault_over {c : Cfg} {s : σ} {e : Err} (h : LineFault c (trace s) e) : LineOver c (trace s) := by
  rw [← crlfNext_err_iff] at h
  intro l t' hl hd
  obtain ⟨s', h1, _⟩ := crlfNext_line hl hd
  rw [h1] at h; simp at h

/-! ### Headers -/

variable [CaseMap]

/-- What a failing loop has met. -/
theorem loop_errs {c : Cfg} {item : Option (Except Err Bytes)} {acc : List HttpHeader} {s : σ} {e : Err}
    (h : (HttpHeaders.deserializeLoop c item acc s).1 = .err e) (hit : ∀ l, item = some (.ok l) → RawLine l) :
    item = some (.error e) ∨ ∃ first tl t', item = some (.ok first) ∧ (∀ l ∈ tl, RawLine l) ∧
      Delivers c (trace s) (tl.flatMap (· ++ [13, 10])) t' ∧
      ((∃ good, Folded (first :: tl) good ∧ (∀ l ∈ good, ∃ k v, HeaderLine l k v) ∧ LineFault c t' e) ∨
       (∃ good bad, e = .parse ∧ LineOver c t' ∧ Folded (first :: tl) (good ++ [bad]) ∧ (∀ l ∈ good, ∃ k v, HeaderLine l k v) ∧
         (∀ k v, ¬ HeaderLine bad k v) ∧ ¬ CutHeader bad)) := by
  fun_induction HttpHeaders.deserializeLoop c item acc s with
  | case1 acc s => simp at h
  | case2 acc s e' =>
    simp only [Res.err.injEq] at h
    subst h
    exact .inl rfl
  | case3 acc s line line' item' s1 hg hd hdes ih =>
    obtain ⟨conts, t, h1, h2, h3, h4, h5⟩ := gather_parts hg
    have hl := hit line rfl
    have htext : IsText line' := by rw [h2]; exact isText_flatten hl.2.2 fun x hx => (h1 x hx).1.2.2
    obtain ⟨k, v, hkv, _⟩ := (HttpHeader.deserialize_iff ((validUtf8_iff _).2 htext) hd).1 hdes
    right
    rcases ih h fun l hl => (h5 l hl).1 with hi | ⟨first, tl, t', i1, i2, i3, i4⟩
    · obtain ⟨s0, g1, g2⟩ := gather_conts line h1 h3 h4
      rw [hg] at g2
      simp only [Prod.mk.injEq] at g2
      refine ⟨line, conts, t, rfl, fun l hl => (h1 l hl).1, h3, .inl ⟨[line'], ?_, ?_, ?_⟩⟩
      · rw [h2]
        have := Folded.line (first := line) (conts := conts) (rest := []) (fun l hl => (h1 l hl).2) (by simp) .nil
        simpa using this
      · intro l hl
        simp only [List.mem_singleton] at hl
        subst hl
        exact ⟨k, v, hkv⟩
      · rw [← g1, ← crlfNext_err_iff, ← g2.2.1, hi]
    · obtain ⟨j1, j2, j3⟩ := h5 first i1
      have hraw : ∀ l ∈ conts ++ first :: tl, RawLine l := by
        intro l hl
        simp only [List.mem_append, List.mem_cons] at hl
        rcases hl with hl | rfl | hl
        · exact (h1 l hl).1
        · exact j1
        · exact i2 l hl
      have hdel : Delivers c (trace s) ((conts ++ first :: tl).flatMap (· ++ [13, 10])) t' := by
        rw [List.flatMap_append, List.flatMap_cons]
        exact h3.append (j3.append i3)
      have hfold : ∀ ls, Folded (first :: tl) ls → Folded (line :: (conts ++ first :: tl)) (line' :: ls) := by
        intro ls i5
        rw [h2]
        refine .line (fun l hl => (h1 l hl).2) ?_ i5
        intro l hl
        simp only [List.head?_cons, Option.some.injEq] at hl
        rw [← hl]; exact j2
      refine ⟨line, conts ++ first :: tl, t', rfl, hraw, hdel, ?_⟩
      rcases i4 with ⟨good, k1, k2, k3⟩ | ⟨good, bad, k0, k1, k2, k3, k4⟩
      · refine .inl ⟨line' :: good, hfold _ k1, ?_, k3⟩
        intro l hl
        simp only [List.mem_cons] at hl
        rcases hl with rfl | hl
        · exact ⟨k, v, hkv⟩
        · exact k2 l hl
      · refine .inr ⟨line' :: good, bad, k0, k1, hfold _ k2, ?_, k4⟩
        intro l hl
        simp only [List.mem_cons] at hl
        rcases hl with rfl | hl
        · exact ⟨k, v, hkv⟩
        · exact k3 l hl
  | case4 acc s line line' item' s1 hg e' hdes =>
    simp only [Res.err.injEq] at h
    subst h
    obtain ⟨conts, t, h1, h2, h3, h4, h5⟩ := gather_parts hg
    have hl := hit line rfl
    have htext : IsText line' := by rw [h2]; exact isText_flatten hl.2.2 fun x hx => (h1 x hx).1.2.2
    obtain ⟨k1, k2, k3⟩ := (header_err_iff ((validUtf8_iff _).2 htext) (by rw [h2]; simp [hl.1]) _).1 hdes
    refine .inr ⟨line, conts, t, rfl, fun l hl => (h1 l hl).1, h3, .inr ⟨[], line', k1, h4, ?_, by simp, k2, k3⟩⟩
    rw [h2]
    have := Folded.line (first := line) (conts := conts) (rest := []) (fun l hl => (h1 l hl).2) (by simp) .nil
    simpa using this
  | case5 acc s line line' item' s1 hg hdes => simp at h

theorem loop_fault {c : Cfg} {e : Err} {raw logical : List Bytes} (hf : Folded raw logical) :
    ∀ {s : σ} {t' : List Ev} (acc : List HttpHeader), raw ≠ [] →
    (∀ l ∈ raw, RawLine l) → (∀ l tl, raw = l :: tl → Delivers c (trace s) (tl.flatMap (· ++ [13, 10])) t') →
    ((∀ l ∈ logical, ∃ k v, HeaderLine l k v) ∧ LineFault c t' e ∨
      ∃ good bad, e = .parse ∧ LineOver c t' ∧ logical = good ++ [bad] ∧ (∀ l ∈ good, ∃ k v, HeaderLine l k v) ∧
        (∀ k v, ¬ HeaderLine bad k v) ∧ ¬ CutHeader bad) →
    (HttpHeaders.deserializeLoop c (raw.head?.map .ok) acc s).1 = .err e := by
  induction hf with
  | nil => intro s t' acc h; simp at h
  | @line first conts rest logical hconts hrest hf ih =>
    intro s t' acc _ hraw hd hx
    have hd' := hd first (conts ++ rest) rfl
    have htext : IsText (first ++ conts.flatten) :=
      isText_flatten (hraw first (by simp)).2.2 fun x hx => (hraw x (by simp [hx])).2.2
    have hvt := (validUtf8_iff _).2 htext
    have hne : first ++ conts.flatten ≠ [] := by simp [(hraw first (by simp)).1]
    have hc : ∀ l ∈ conts, RawLine l ∧ StartsBlank l := fun l hl => ⟨hraw l (by simp [hl]), hconts l hl⟩
    rw [List.flatMap_append] at hd'
    obtain ⟨m, hm1, hm2⟩ := hd'.split
    have ho : LineOver c t' := by
      rcases hx with ⟨_, h⟩ | ⟨_, _, _, h, _⟩
      · exact lineFault_over (s := Evs.mk t') h
      · exact h
    have hover : LineOver c m := by
      cases rest with
      | nil =>
        simp only [List.flatMap_nil] at hm2
        rw [delivers_none hm2]; exact ho
      | cons n rest =>
        rw [List.flatMap_cons] at hm2
        obtain ⟨m2, hk1, hk2⟩ := hm2.split
        intro l t2 hl hdl
        rw [line_unique hl hdl (hraw n (by simp)) hk1]
        exact hrest n rfl
    obtain ⟨s0, h3, h4⟩ := gather_conts first hc hm1 hover
    simp only [List.head?_cons, Option.map_some]
    unfold HttpHeaders.deserializeLoop
    simp only [h4]
    by_cases hlast : ∃ bad, logical = [] ∧ bad = first ++ conts.flatten ∧ e = .parse ∧ (∀ k v, ¬ HeaderLine bad k v) ∧ ¬ CutHeader bad
    · obtain ⟨bad, rfl, rfl, rfl, k2, k3⟩ := hlast
      rw [(header_err_iff hvt hne .parse).2 ⟨rfl, k2, k3⟩]
    have hhead : ∃ k v, HeaderLine (first ++ conts.flatten) k v := by
      rcases hx with ⟨h, _⟩ | ⟨good, bad, he, _, h, hg, hb⟩
      · exact h _ (by simp)
      · cases good with
        | nil =>
          simp only [List.nil_append, List.cons.injEq] at h
          exact absurd ⟨bad, h.2, h.1.symm, he, hb⟩ hlast
        | cons g good =>
          simp only [List.cons_append, List.cons.injEq] at h
          rw [h.1]; exact hg g (by simp)
    have htail : (∀ l ∈ logical, ∃ k v, HeaderLine l k v) ∧ LineFault c t' e ∨
      ∃ good bad, e = .parse ∧ LineOver c t' ∧ logical = good ++ [bad] ∧ (∀ l ∈ good, ∃ k v, HeaderLine l k v) ∧
        (∀ k v, ¬ HeaderLine bad k v) ∧ ¬ CutHeader bad := by
      rcases hx with ⟨h, h'⟩ | ⟨good, bad, he, h', h, hg, hb⟩
      · exact .inl ⟨fun l hl => h l (by simp [hl]), h'⟩
      · cases good with
        | nil =>
          simp only [List.nil_append, List.cons.injEq] at h
          exact absurd ⟨bad, h.2, h.1.symm, he, hb⟩ hlast
        | cons g good =>
          simp only [List.cons_append, List.cons.injEq] at h
          exact .inr ⟨good, bad, he, h', h.2, fun l hl => hg l (by simp [hl]), hb⟩
    obtain ⟨k, v, hkv⟩ := hhead
    rw [(HttpHeader.deserialize_iff hvt ⟨CaseMap.lower k, v⟩).2 ⟨k, v, hkv, rfl⟩]
    dsimp only
    cases rest with
    | nil =>
      cases hf
      simp only [List.flatMap_nil] at hm2
      rcases htail with ⟨_, h⟩ | ⟨good, bad, _, _, h, _⟩
      · rw [← delivers_none hm2, ← h3, ← crlfNext_err_iff] at h
        rw [h]
        unfold HttpHeaders.deserializeLoop
        rfl
      · simp at h
    | cons n rest =>
      rw [List.flatMap_cons] at hm2
      obtain ⟨m2, hk1, hk2⟩ := hm2.split
      obtain ⟨s2, h5, h6⟩ := crlfNext_line (s := s0) (hraw n (by simp)) (by rw [h3]; exact hk1)
      rw [h5]
      have := ih (s := s2) (t' := t') (acc ++ [⟨CaseMap.lower k, v⟩]) (by simp) (fun l hl => hraw l (by simp at hl ⊢; exact .inr (.inr hl)))
        (by rintro l tl he; simp only [List.cons.injEq] at he; rw [← he.2, h6]; exact hk2) htail
      exact this

/-- Exactly which error the parser of headers gives. -/
theorem headers_err_iff (c : Cfg) (s : σ) (e : Err) : (HttpHeaders.deserialize c s).1 = .err e ↔ HeadersFault c (trace s) e := by
  have hde : (HttpHeaders.deserialize c s).1 = .err e ↔
      (HttpHeaders.deserializeLoop c (crlfNext c s).1 [] (crlfNext c s).2).1 = .err e := by
    unfold HttpHeaders.deserialize
    rcases crlfNext c s with ⟨item, s1⟩
    dsimp only
    rcases HttpHeaders.deserializeLoop c item [] s1 with ⟨r | e | _, s2⟩ <;> simp
  rw [hde]
  constructor
  · intro h
    rcases loop_errs h fun l hl => by
      rcases hx : crlfNext c s with ⟨item, s1⟩
      rw [hx] at hl
      dsimp only at hl
      subst hl
      exact (crlfNext_ok_inv hx).1 with hi | ⟨first, tl, t', h1, h2, h3, h4⟩
    · exact .line (raw := []) (good := []) (by simp) (.nil _) .nil (by simp) ((crlfNext_err_iff c s e).1 hi)
    rcases hx : crlfNext c s with ⟨item, s1⟩
    rw [hx] at h1 h3
    dsimp only at h1 h3
    subst h1
    obtain ⟨hr, hd⟩ := crlfNext_ok_inv hx
    have hraw : ∀ l ∈ first :: tl, RawLine l := by
      intro l hl
      simp only [List.mem_cons] at hl
      rcases hl with rfl | hl
      · exact hr
      · exact h2 l hl
    have hdel : Delivers c (trace s) ((first :: tl).flatMap (· ++ [13, 10])) t' := by
      rw [List.flatMap_cons]; exact hd.append h3
    rcases h4 with ⟨good, k1, k2, k3⟩ | ⟨good, bad, rfl, k1, k2, k3, k4, k5⟩
    · exact .line hraw hdel k1 k2 k3
    · exact .field hraw hdel k1 k2 k3 k4 k5
  · intro h
    have main : ∀ {raw logical : List Bytes} {t' : List Ev}, Folded raw logical → raw ≠ [] → (∀ l ∈ raw, RawLine l) →
        Delivers c (trace s) (raw.flatMap (· ++ [13, 10])) t' →
        ((∀ l ∈ logical, ∃ k v, HeaderLine l k v) ∧ LineFault c t' e ∨
        ∃ good bad, e = .parse ∧ LineOver c t' ∧ logical = good ++ [bad] ∧ (∀ l ∈ good, ∃ k v, HeaderLine l k v) ∧
          (∀ k v, ¬ HeaderLine bad k v) ∧ ¬ CutHeader bad) →
        (HttpHeaders.deserializeLoop c (crlfNext c s).1 [] (crlfNext c s).2).1 = .err e := by
      intro raw logical t' h4 hne h1 h2 hx
      cases raw with
      | nil => simp at hne
      | cons first tl =>
        rw [List.flatMap_cons] at h2
        obtain ⟨m, hm1, hm2⟩ := h2.split
        obtain ⟨s1, k1, k2⟩ := crlfNext_line (h1 first (by simp)) hm1
        rw [k1]
        exact loop_fault h4 [] (by simp) h1
          (by rintro l tl' he; simp only [List.cons.injEq] at he; rw [← he.2, k2]; exact hm2) hx
    cases h with
    | @line raw good t' _ h1 h2 h3 h4 h5 =>
      by_cases hr : raw = []
      · subst hr
        cases h3
        simp only [List.flatMap_nil] at h2
        rw [← delivers_none h2, ← crlfNext_err_iff] at h5
        rw [h5]
        unfold HttpHeaders.deserializeLoop
        rfl
      · exact main h3 hr h1 h2 (.inl ⟨h4, h5⟩)
    | @field raw good bad t' h1 h2 h3 h4 h5 h6 h7 =>
      refine main h4 ?_ h1 h2 (.inr ⟨good, bad, rfl, h3, rfl, h5, h6, h7⟩)
      rintro rfl
      generalize hx : good ++ [bad] = x at h4
      cases h4
      simp at hx

/-! ### Heads -/

/-- Exactly which error the parser of heads gives. -/
theorem parseHead_err_iff {α : Type} (c : Cfg) (start : Bytes → Res α) (Start : Bytes → Prop) (StartFault : Bytes → Err → Prop)
    (hok : ∀ line, RawLine line → ((∃ a, start line = .ok a) ↔ Start line))
    (herr : ∀ line e, RawLine line → (start line = .err e ↔ StartFault line e)) (s : σ) (e : Err) :
    (parseHead c start s).1 = .err e ↔ HeadFault c Start StartFault (trace s) e := by
  constructor
  · intro h
    unfold parseHead at h
    rcases h1 : expectNext c s with ⟨r1, s1⟩
    rw [h1] at h
    cases r1 with
    | error e' =>
      simp only [Res.err.injEq] at h
      subst h
      rcases (expectNext_err_iff c s e').1 (by rw [h1]) with h | ⟨rfl, t', h⟩
      · exact .first h
      · exact .blank h
    | ok line =>
      obtain ⟨hr, hd⟩ := expectNext_ok_inv h1
      dsimp only at h
      cases hst : start line with
      | err e' =>
        rw [hst] at h
        simp only [Res.err.injEq] at h
        subst h
        exact .start hr hd ((herr line e' hr).1 hst)
      | panic => rw [hst] at h; simp at h
      | ok a =>
        rw [hst] at h
        dsimp only at h
        have hS := (hok line hr).1 ⟨a, hst⟩
        rcases h2 : HttpHeaders.deserialize c s1 with ⟨q, s2⟩
        rw [h2] at h
        cases q with
        | err e' =>
          simp only [Res.err.injEq] at h
          subst h
          exact .headers hr hd hS ((headers_err_iff c s1 e').1 (by rw [h2]))
        | panic => simp at h
        | ok hs =>
          dsimp only at h
          obtain ⟨raw, m1, m2⟩ := headers_inv h2
          obtain ⟨logical, hf⟩ := folded_exists raw
          have htext := folded_isText hf m1
          obtain ⟨s3, h3, h4⟩ := deserialize_block hf m1 m2
          rw [h2] at h3
          cases hp : parseLines logical with
          | err e' => rw [hp] at h3; simp [Res.map] at h3
          | panic => rw [hp] at h3; simp [Res.map] at h3
          | ok hds =>
            obtain ⟨hist, g1, g2⟩ := hist_of_lines ((parseLines_iff htext).1 ⟨hds, hp⟩)
            subst g1
            obtain ⟨s4, h5, _⟩ := deserialize_hist hf m1 g2 m2
            rw [h2] at h5
            simp only [Prod.mk.injEq, Res.ok.injEq] at h5
            rw [h5.1] at h
            have hsorted : SortedNames (insertAll (hist.map fun kv => (CaseMap.lower kv.1, kv.2)) []) :=
              insertAll_sorted (by simp [SortedNames])
            rcases contentLengthOf_cases (h := ⟨insertAll (hist.map fun kv => (CaseMap.lower kv.1, kv.2)) []⟩) hsorted with ⟨hcl, _⟩ | ⟨w, n, _, _, hcl⟩ | ⟨v, hv, hbad, hcl⟩
            · rw [hcl] at h; simp at h
            · rw [hcl] at h; simp at h
            · rw [hcl] at h
              simp only [Res.err.injEq] at h
              subst h
              refine .length (raw := raw) (hist := hist) (v := v) (t' := trace s2) hr hS m1 ?_ hf g2 ?_ fun n hn hu => hbad ⟨n, hu, hn⟩
              · have := hd.append m2
                unfold blockBytes at this ⊢
                simpa using this
              · rw [utf8_contentLength, lastWith_last]
                exact table_last.1 hv
  · intro h
    cases h with
    | first h =>
      have := (expectNext_err_iff c s e).2 (.inl h)
      unfold parseHead
      rcases h1 : expectNext c s with ⟨r1, s1⟩
      rw [h1] at this
      dsimp only at this
      rw [this]
    | blank h =>
      have := (expectNext_err_iff c s .unexpectedEof).2 (.inr ⟨rfl, _, h⟩)
      unfold parseHead
      rcases h1 : expectNext c s with ⟨r1, s1⟩
      rw [h1] at this
      dsimp only at this
      rw [this]
    | start hr hd hf =>
      obtain ⟨s1, h1, h2⟩ := expectNext_line hr hd
      unfold parseHead
      rw [h1]; dsimp only
      rw [(herr _ _ hr).2 hf]
    | headers hr hd hS hf =>
      obtain ⟨s1, h1, h2⟩ := expectNext_line hr hd
      obtain ⟨a, ha⟩ := (hok _ hr).2 hS
      unfold parseHead
      rw [h1]; dsimp only
      rw [ha]; dsimp only
      rw [← h2, ← headers_err_iff] at hf
      rcases h3 : HttpHeaders.deserialize c s1 with ⟨q, s2⟩
      rw [h3] at hf
      dsimp only at hf
      rw [hf]
    | @length line v raw hist t' hr hS hraw hd hf hc hl hno =>
      rw [show blockBytes (line :: raw) = line ++ [13, 10] ++ blockBytes raw by simp [blockBytes]] at hd
      obtain ⟨m, hm1, hm2⟩ := hd.split
      obtain ⟨a, ha⟩ := (hok _ hr).2 hS
      obtain ⟨s1, h1, h2⟩ := expectNext_line hr hm1
      obtain ⟨s2, h3, h4⟩ := deserialize_hist hf hraw hc (s := s1) (by rw [h2]; exact hm2)
      have hsorted : SortedNames (insertAll (hist.map fun kv => (CaseMap.lower kv.1, kv.2)) []) :=
        insertAll_sorted (by simp [SortedNames])
      rw [utf8_contentLength] at hl
      have hcl : contentLengthOf ⟨insertAll (hist.map fun kv => (CaseMap.lower kv.1, kv.2)) []⟩ = .err .parseInt := by
        have hv' := table_last.2 (lastWith_last.1 hl)
        rcases contentLengthOf_cases (h := ⟨_⟩) hsorted with ⟨_, h⟩ | ⟨w, n, hw, hn, _⟩ | ⟨_, _, _, h⟩
        · exact absurd hv' (h v)
        · have := lastWith_last.1 hl
          rw [table_last.1 hw] at this
          rw [Option.some.injEq] at this
          exact absurd (this ▸ hn).1 (hno n (this ▸ hn).2)
        · exact h
      unfold parseHead
      rw [h1]; dsimp only
      rw [ha]; dsimp only
      rw [h3]; dsimp only
      rw [hcl]

/-! ### C188 -/

/-- Exactly which error a request gives that is not accepted, whatever the transport does. -/
theorem C188_request (c : Cfg) (s : σ) (e : Err) : (HttpRequest.deserialize c s).1 = .err e ↔ RequestFault c (trace s) e := by
  unfold RequestFault
  rw [← parseHead_err_iff c parseRequestLine _ _ (fun line hr => ?_) (fun line e hr => requestLine_err_iff ((validUtf8_iff _).2 hr.2.2) hr.1 e)]
  · unfold HttpRequest.deserialize
    rcases parseHead c parseRequestLine s with ⟨⟨⟨m, uri, v⟩, hs, enc, n⟩ | e | _, s1⟩ <;> simp
  · have hv := (validUtf8_iff _).2 hr.2.2
    constructor
    · rintro ⟨⟨m, uri, v⟩, h⟩
      exact ⟨m, uri, v.major, v.minor, (requestLine_ok_iff hv _ _ _).1 h⟩
    · rintro ⟨m, uri, a, b, h⟩
      exact ⟨_, (requestLine_ok_iff hv m uri ⟨a, b⟩).2 h⟩

/-- The same for responses. -/
theorem C188_response (c : Cfg) (s : σ) (e : Err) : (HttpResponse.deserialize c s).1 = .err e ↔ ResponseFault c (trace s) e := by
  unfold ResponseFault
  rw [← parseHead_err_iff c parseStatusLine _ _ (fun line hr => ?_) (fun line e hr => statusLine_err_iff ((validUtf8_iff _).2 hr.2.2) hr.1 e)]
  · unfold HttpResponse.deserialize
    rcases parseHead c parseStatusLine s with ⟨⟨⟨v, st⟩, hs, enc, n⟩ | e | _, s1⟩ <;> simp
  · have hv := (validUtf8_iff _).2 hr.2.2
    constructor
    · rintro ⟨⟨v, st⟩, h⟩
      obtain ⟨code, h, _⟩ := (statusLine_ok_iff hv v st).1 h
      exact ⟨v.major, v.minor, code, h⟩
    · rintro ⟨a, b, code, h⟩
      exact ⟨_, (statusLine_ok_iff hv ⟨a, b⟩ _).2 ⟨code, h, rfl⟩⟩

/-- So a stream gives one error at most. -/
theorem C188_unique (c : Cfg) (t : List Ev) (e e' : Err) :
    (RequestFault c t e → RequestFault c t e' → e = e') ∧ (ResponseFault c t e → ResponseFault c t e' → e = e') := by
  refine ⟨fun h h' => ?_, fun h h' => ?_⟩
  · have h1 := (C188_request c (Evs.mk t) e).2 h
    have h2 := (C188_request c (Evs.mk t) e').2 h'
    rw [h1] at h2
    simpa using h2
  · have h1 := (C188_response c (Evs.mk t) e).2 h
    have h2 := (C188_response c (Evs.mk t) e').2 h'
    rw [h1] at h2
    simpa using h2

/-- And one exactly, unless it is a request that is accepted or one that panics. -/
theorem C188_total (c : Cfg) (t : List Ev) :
    ((∃ e, RequestFault c t e) ↔
      ¬ CutRequest c t ∧ ∀ line hist t' m target major minor, ¬ (RequestLine line m target major minor ∧ HeadOf c t line hist t')) ∧
    ((∃ e, ResponseFault c t e) ↔
      ¬ CutResponse c t ∧ ∀ line hist t' major minor code, ¬ (StatusLine line major minor code ∧ HeadOf c t line hist t')) := by
  refine ⟨⟨?_, ?_⟩, ⟨?_, ?_⟩⟩
  · rintro ⟨e, h⟩
    have h1 := (C188_request c (Evs.mk t) e).2 h
    refine ⟨fun hc => ?_, ?_⟩
    · rw [(C11_request_panics_iff c (Evs.mk t)).2 hc] at h1; simp at h1
    · rintro line hist t' m target major minor ⟨k1, k2⟩
      obtain ⟨r, s', h2, _⟩ := C69_request_complete c (Evs.mk t) line m target ⟨major, minor⟩ hist t' k1 k2
      rw [h2] at h1; simp at h1
  · rintro ⟨h1, h2⟩
    rcases h : HttpRequest.deserialize c (Evs.mk t) with ⟨r | e | _, s'⟩
    · obtain ⟨line, hist, k1, k2, _⟩ := C69_request_sound c _ _ _ h
      exact absurd ⟨k1, k2⟩ (h2 line hist _ _ _ _ _)
    · exact ⟨e, (C188_request c (Evs.mk t) e).1 (by rw [h])⟩
    · exact absurd ((C11_request_panics_iff c (Evs.mk t)).1 (by rw [h])) h1
  · rintro ⟨e, h⟩
    have h1 := (C188_response c (Evs.mk t) e).2 h
    refine ⟨fun hc => ?_, ?_⟩
    · rw [(C11_response_panics_iff c (Evs.mk t)).2 hc] at h1; simp at h1
    · rintro line hist t' major minor code ⟨k1, k2⟩
      obtain ⟨r, s', h2, _⟩ := C69_response_complete c (Evs.mk t) line ⟨major, minor⟩ code hist t' k1 k2
      rw [h2] at h1; simp at h1
  · rintro ⟨h1, h2⟩
    rcases h : HttpResponse.deserialize c (Evs.mk t) with ⟨r | e | _, s'⟩
    · obtain ⟨line, hist, k1, k2, _⟩ := C69_response_sound c _ _ _ h
      exact absurd ⟨k1, k2⟩ (h2 line hist _ _ _ _)
    · exact ⟨e, (C188_response c (Evs.mk t) e).1 (by rw [h])⟩
    · exact absurd ((C11_response_panics_iff c (Evs.mk t)).1 (by rw [h])) h1

end

theorem err_of {α : Type} {x : Res α} {e : Err} (h : (match x with | .err e' => decide (e' = e) | _ => false) = true) : x = .err e := by
  cases x <;> simp_all

/- An unknown method; the transport fails in the first line; no colon in the second header line, with a failure after it. -/
example (c : Cfg) : let _ := asciiCase
    RequestFault c (trace (Wire.mk [.data b!"BREW / HTTP/1.1\r\n"])) .parse ∧
    RequestFault c (trace (Wire.mk [.data b!"GET / HT", .fault .ssl, .data b!"TP/1.1\r\n\r\n"])) .ssl ∧
    RequestFault c (trace (Wire.mk [.data b!"GET / HTTP/1.1\r\na: b\r\n c\r\nd\r\n", .fault .ssl])) .parse := by
  intro _
  refine ⟨.start (line := b!"BREW / HTTP/1.1") (t' := []) (rawLine_of (by decide) (by decide) (by decide)) ?_
      (.method (tok := b!"BREW") ⟨by decide, .inr ⟨32, b!"/ HTTP/1.1", rfl, .inl rfl⟩⟩ ?_),
    .first (.fails (bs := b!"GET / HT") (t' := .fault .ssl :: b!"TP/1.1\r\n\r\n".map .byte) (t'' := b!"TP/1.1\r\n\r\n".map .byte)
      ?_ ?_ ⟨by simp [Retried], [], rfl, by simp [Ended]⟩), ?_⟩
  · repeat' constructor
  · intro m; cases m <;> decide +kernel
  · rintro ⟨p, q, h⟩
    have : (13 : UInt8) ∈ b!"GET / HT" := by rw [← h]; simp
    exact absurd this (by decide)
  · repeat' constructor
  · refine (C188_request c _ _).1 (err_of ?_)
    rcases c with ⟨_ | _⟩ <;> decide +kernel

/- No target; no version; an empty first line; a letter for a digit; no dot; a length that is no number; a line that is no text. -/
example (c : Cfg) : let _ := asciiCase
    RequestFault c (trace (Wire.mk [.data b!"GET  \r\n"])) .unexpectedEof ∧
    RequestFault c (trace (Wire.mk [.data b!"GET /\t\r\n"])) .unexpectedEof ∧
    RequestFault c (trace (Wire.mk [.data b!"\r\nGET / HTTP/1.1\r\n\r\n"])) .unexpectedEof ∧
    RequestFault c (trace (Wire.mk [.data b!"GET / HTTP/x.1\r\n"])) .parseInt ∧
    RequestFault c (trace (Wire.mk [.data b!"GET / HTTP/2\r\n"])) .unexpectedEof ∧
    RequestFault c (trace (Wire.mk [.data b!"GET / HTTP/11\r\n"])) .parse ∧
    RequestFault c (trace (Wire.mk [.data b!"PUT / HTTP/1.1\r\nContent-Length: 1\r\ncontent-length: 1 \r\n\r\n"])) .parseInt ∧
    RequestFault c (trace (Wire.mk [.data (b!"GET /" ++ [0xff] ++ b!" HTTP/1.1\r\n\r\n")])) .utf8 := by
  intro _
  refine ⟨?_, ?_, ?_, ?_, ?_, ?_, ?_, ?_⟩ <;> refine (C188_request c _ _).1 (err_of ?_) <;> rcases c with ⟨_ | _⟩ <;> decide +kernel

/- A code that is too great; no code; no `HTTP`; the stream ends within the headers. -/
example (c : Cfg) : let _ := asciiCase
    ResponseFault c (trace (Wire.mk [.data b!"HTTP/1.1 4294967296\r\n"])) .parseInt ∧
    ResponseFault c (trace (Wire.mk [.data b!"HTTP/1.1 \t\r\n"])) .unexpectedEof ∧
    ResponseFault c (trace (Wire.mk [.data b!"ICY 200 OK\r\n"])) .parse ∧
    ResponseFault c (trace (Wire.mk [.data b!"HTTP/1.1 200 OK\r\na: b\r\n"])) .unexpectedEof := by
  intro _
  refine ⟨?_, ?_, ?_, ?_⟩ <;> refine (C188_response c _ _).1 (err_of ?_) <;> rcases c with ⟨_ | _⟩ <;> decide +kernel

end HttpIo
