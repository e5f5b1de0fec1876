import Verif.Spec.Rfc
import Verif.Props.Message

/-! C64, C65: where the body of a message ends, compared with RFC 7230. -/

namespace HttpIo
open Spec

/-! ### C64 -/

theorem Spec.SameText.length {s t : Bytes} (h : SameText s t) : s.length = t.length := by
  induction h with
  | nil => rfl
  | cons _ _ ih => simp [ih]

theorem Spec.SameText.self (s : Bytes) : SameText s s := by
  induction s with
  | nil => exact .nil
  | cons b s ih => exact .cons (.inl rfl) ih

/-- The RFC's rules say one thing only. -/
theorem C64_rfc_unique {te cl : List Bytes} {f g : Option Framing} (hf : RfcRequest te cl f) (hg : RfcRequest te cl g) : f = g := by
  have nt : ∀ {v : Bytes}, te = [] → te.getLast? = some v → False := by rintro v rfl h; simp at h
  cases hf with
  | chunked h1 h2 => cases hg with
    | chunked => rfl
    | unknownCoding h3 h4 => rw [h1] at h3; cases h3; exact absurd h2 h4
    | _ => exact (nt (by assumption) h1).elim
  | unknownCoding h1 h2 => cases hg with
    | chunked h3 h4 => rw [h1] at h3; cases h3; exact absurd h4 h2
    | unknownCoding => rfl
    | _ => exact (nt (by assumption) h1).elim
  | conflict h1 h2 h3 h4 => cases hg with
    | chunked h5 => exact (nt h1 h5).elim
    | length _ _ h6 _ => exact absurd ((h6 _ h2).trans (h6 _ h3).symm) h4
    | absent _ h6 => rw [h6] at h2; simp at h2
    | _ => rfl
  | invalid h1 h2 h3 => cases hg with
    | chunked h5 => exact (nt h1 h5).elim
    | length _ _ h6 h7 => exact absurd ⟨_, h6 _ h2 ▸ h7⟩ h3
    | absent _ h6 => rw [h6] at h2; simp at h2
    | _ => rfl
  | length h1 h2 h3 h4 => cases hg with
    | chunked h5 => exact (nt h1 h5).elim
    | unknownCoding h5 => exact (nt h1 h5).elim
    | conflict _ h5 h6 h7 => exact absurd ((h3 _ h5).trans (h3 _ h6).symm) h7
    | invalid _ h5 h6 => exact absurd ⟨_, (h3 _ h5).symm ▸ h4⟩ h6
    | length _ h5 _ h6 =>
      rw [h3 _ h5] at h6
      rw [h4.toFrom.unique h6.toFrom]
    | absent _ h5 => rw [h5] at h2; simp at h2
  | absent h1 h2 => cases hg with
    | chunked h5 => exact (nt h1 h5).elim
    | unknownCoding h5 => exact (nt h1 h5).elim
    | absent => rfl
    | conflict _ h3 => rw [h2] at h3; simp at h3
    | invalid _ h3 => rw [h2] at h3; simp at h3
    | length _ h3 => rw [h2] at h3; simp at h3

section
variable [CaseMap] {σ : Type} [LawfulReader σ]

/-- A message whose header lines, in order of arrival, are `hist`. -/
theorem head_hist {c : Cfg} {s : σ} {α : Type} {start : Bytes → Res α} {line : Bytes} {a : α} {raw : List Bytes}
    {hist : List (Bytes × Bytes)} {t' : List Ev} (hline : RawLine line) (hst : start line = .ok a)
    (hf : Folded raw (hist.map fun kv => kv.1 ++ [58, 32] ++ kv.2)) (hraw : ∀ l ∈ raw, RawLine l)
    (hc : ∀ kv ∈ hist, (58 : UInt8) ∉ kv.1)
    (hl : ∀ v, LastWith (fun k => CaseMap.lower k = b!"content-length") hist v → ∃ n, LengthText v n)
    (hd : Delivers c (trace s) (line ++ [13, 10] ++ blockBytes raw) t') :
    ∃ enc n s', parseHead c start s =
        (.ok (a, ⟨insertAll (hist.map fun kv => (CaseMap.lower kv.1, kv.2)) []⟩, enc, n), s') ∧ trace s' = t' := by
  obtain ⟨mid, hm1, hm2⟩ := hd.split
  obtain ⟨s1, h1, h2⟩ := expectNext_line hline hm1
  obtain ⟨s2, h3, h4⟩ := deserialize_hist hf hraw hc (s := s1) (by rw [h2]; exact hm2)
  have hsorted : SortedNames (insertAll (hist.map fun kv => (CaseMap.lower kv.1, kv.2)) []) :=
    insertAll_sorted (by simp [SortedNames])
  obtain ⟨n, hcl⟩ : ∃ n, contentLengthOf ⟨insertAll (hist.map fun kv => (CaseMap.lower kv.1, kv.2)) []⟩ = .ok n := by
    rcases contentLengthOf_cases (h := ⟨_⟩) hsorted with ⟨h, _⟩ | ⟨w, n, _, _, h⟩ | ⟨v, hv, hbad, _⟩
    · exact ⟨_, h⟩
    · exact ⟨_, h⟩
    · have := (mapGet_iff hsorted _ _).2 hv
      rw [mapGet_insertAll] at this
      exact absurd (hl v (lastWith_map_lower.1 this)) hbad
  unfold parseHead
  rw [h1]; dsimp only
  rw [hst]; dsimp only
  rw [h3]; dsimp only
  rw [hcl]
  exact ⟨_, _, _, rfl, h4⟩

omit [LawfulReader σ] in
theorem mem_valuesOf {name v : Bytes} {hist : List (Bytes × Bytes)} :
    v ∈ valuesOf name hist ↔ ∃ k, (k, v) ∈ hist ∧ CaseMap.lower k = name := by
  unfold valuesOf
  simp only [List.mem_map, List.mem_filter, decide_eq_true_eq]
  constructor
  · rintro ⟨⟨k, w⟩, ⟨h1, h2⟩, rfl⟩; exact ⟨k, h1, h2⟩
  · rintro ⟨k, h1, h2⟩; exact ⟨(k, v), ⟨h1, h2⟩, rfl⟩

omit [LawfulReader σ] in
theorem lastWith_valuesOf {name v : Bytes} {hist : List (Bytes × Bytes)}
    (h : LastWith (fun k => CaseMap.lower k = name) hist v) : v ∈ valuesOf name hist := by
  obtain ⟨pre, k, post, rfl, hk, _⟩ := h
  exact mem_valuesOf.2 ⟨k, by simp, hk⟩

omit [LawfulReader σ] in
theorem lastWith_last {name v : Bytes} {hist : List (Bytes × Bytes)} :
    LastWith (fun k => CaseMap.lower k = name) hist v ↔ (valuesOf name hist).getLast? = some v := by
  unfold valuesOf
  rw [List.getLast?_map, Option.map_eq_some_iff]
  constructor
  · rintro ⟨pre, k, post, rfl, hk, hpost⟩
    refine ⟨(k, v), ?_, rfl⟩
    have : post.filter (fun kv => decide (CaseMap.lower kv.1 = name)) = [] := by
      rw [List.filter_eq_nil_iff]; intro a ha; simpa using hpost a ha
    rw [List.filter_append, List.filter_cons_of_pos (by simpa using hk), this]
    simp
  · rintro ⟨⟨k, w⟩, h, rfl⟩
    have hne : ∃ u, LastWith (fun k => CaseMap.lower k = name) hist u := by
      refine Classical.byContradiction fun hno => ?_
      rw [not_lastWith] at hno
      have hm := List.mem_of_getLast? h
      rw [List.mem_filter] at hm
      exact hno _ hm.1 (by simpa using hm.2)
    obtain ⟨u, pre, k', post, rfl, hk, hpost⟩ := hne
    have : post.filter (fun kv => decide (CaseMap.lower kv.1 = name)) = [] := by
      rw [List.filter_eq_nil_iff]; intro a ha; simpa using hpost a ha
    rw [List.filter_append, List.filter_cons_of_pos (by simpa using hk), this] at h
    simp only [List.getLast?_append, List.getLast?_singleton, Option.some_or, Option.some.injEq, Prod.mk.injEq] at h
    obtain ⟨rfl, rfl⟩ := h
    exact ⟨pre, k', post, rfl, hk, hpost⟩

omit [LawfulReader σ] in
theorem table_last {name v : Bytes} {hist : List (Bytes × Bytes)} :
    (name, v) ∈ insertAll (hist.map fun kv => (CaseMap.lower kv.1, kv.2)) [] ↔ (valuesOf name hist).getLast? = some v := by
  rw [← mapGet_iff (insertAll_sorted (by simp [SortedNames])), mapGet_insertAll, lastWith_map_lower, lastWith_last]

/-- Every head of a message: accepted if the last length can be read, otherwise refused. -/
theorem head_hist_cases {c : Cfg} {s : σ} {α : Type} {start : Bytes → Res α} {line : Bytes} {a : α} {raw : List Bytes}
    {hist : List (Bytes × Bytes)} {t' : List Ev} (hline : RawLine line) (hst : start line = .ok a)
    (hf : Folded raw (hist.map fun kv => kv.1 ++ [58, 32] ++ kv.2)) (hraw : ∀ l ∈ raw, RawLine l)
    (hc : ∀ kv ∈ hist, (58 : UInt8) ∉ kv.1) (hd : Delivers c (trace s) (line ++ [13, 10] ++ blockBytes raw) t') :
    ((∀ v, (valuesOf b!"content-length" hist).getLast? = some v → ∃ n, LengthText v n) ∧ ∃ enc n s', parseHead c start s =
        (.ok (a, ⟨insertAll (hist.map fun kv => (CaseMap.lower kv.1, kv.2)) []⟩, enc, n), s') ∧ trace s' = t') ∨
    ∃ v e s', (valuesOf b!"content-length" hist).getLast? = some v ∧ (¬ ∃ n, LengthText v n) ∧
      parseHead c start s = (.err e, s') := by
  by_cases hl : ∀ v, LastWith (fun k => CaseMap.lower k = b!"content-length") hist v → ∃ n, LengthText v n
  · exact .inl ⟨fun v hv => hl v (lastWith_last.2 hv), head_hist hline hst hf hraw hc hl hd⟩
  · simp only [Classical.not_forall] at hl
    obtain ⟨v, hv, hbad⟩ := hl
    obtain ⟨mid, hm1, hm2⟩ := hd.split
    obtain ⟨s1, h1, h2⟩ := expectNext_line hline hm1
    obtain ⟨s2, h3, h4⟩ := deserialize_hist hf hraw hc (s := s1) (by rw [h2]; exact hm2)
    have hsorted : SortedNames (insertAll (hist.map fun kv => (CaseMap.lower kv.1, kv.2)) []) :=
      insertAll_sorted (by simp [SortedNames])
    have hcl : contentLengthOf ⟨insertAll (hist.map fun kv => (CaseMap.lower kv.1, kv.2)) []⟩ = .err .parseInt := by
      have hv' := table_last.2 (lastWith_last.1 hv)
      rcases contentLengthOf_cases (h := ⟨_⟩) hsorted with ⟨_, h⟩ | ⟨w, n, hw, hn, _⟩ | ⟨_, _, _, h⟩
      · exact absurd hv' (h v)
      · have := lastWith_last.1 hv
        rw [table_last.1 hw] at this
        rw [Option.some.injEq] at this
        exact absurd ⟨n, this ▸ hn⟩ hbad
      · exact h
    refine .inr ⟨v, .parseInt, s2, lastWith_last.1 hv, hbad, ?_⟩
    unfold parseHead
    rw [h1]; dsimp only
    rw [hst]; dsimp only
    rw [h3]; dsimp only
    rw [hcl]

omit [LawfulReader σ] in
theorem framed_last {hist : List (Bytes × Bytes)} {f : Framing}
    (hf : FramedBy (insertAll (hist.map fun kv => (CaseMap.lower kv.1, kv.2)) []) f) :
    ((valuesOf b!"transfer-encoding" hist).getLast? = some b!"chunked" ∧ f = .chunked) ∨
    ((valuesOf b!"transfer-encoding" hist).getLast? ≠ some b!"chunked" ∧
      ∃ v n, (valuesOf b!"content-length" hist).getLast? = some v ∧ LengthText v n ∧ f = .limited n) ∨
    ((valuesOf b!"transfer-encoding" hist).getLast? ≠ some b!"chunked" ∧ valuesOf b!"content-length" hist = [] ∧
      f = .tilClose) := by
  cases hf with
  | chunked h => exact .inl ⟨table_last.1 h, rfl⟩
  | limited h hv hn => exact .inr (.inl ⟨fun e => h (table_last.2 e), _, _, table_last.1 hv, hn, rfl⟩)
  | tilClose h hno =>
    refine .inr (.inr ⟨fun e => h (table_last.2 e), ?_, rfl⟩)
    refine Classical.byContradiction fun hne => ?_
    exact hno _ (table_last.2 (List.getLast?_eq_some_getLast hne))

theorem finalChunked_chunked : FinalChunked b!"chunked" :=
  ⟨[], b!"chunked", [], by simp, .self _, by simp [Blanks], .inl (by simp [Blanks])⟩

theorem lengthText_digits {v : Bytes} {n k : Nat} (h : LengthText v n) (hk : Numeral 10 v k) : k = n := by
  obtain ⟨h1 | ⟨ds, rfl, _⟩, _⟩ := h
  · exact hk.toFrom.unique h1.toFrom
  · obtain ⟨d, hd⟩ := hk.digits 43 (by simp)
    exact absurd hd not_digit_plus

/-- A length that can be read is plainly spelled or has a sign in front. -/
theorem lengthText_plain {v : Bytes} {n : Nat} (h : LengthText v n) (hk : ∃ k, Numeral 10 v k) : Numeral 10 v n ∧ n < 2 ^ 64 := by
  obtain ⟨k, hk⟩ := hk
  have := lengthText_digits h hk
  exact ⟨this ▸ hk, h.2⟩

omit [LawfulReader σ] in
theorem Spec.Plain.framed {hist : List (Bytes × Bytes)} (hp : Plain hist) {f : Framing}
    (hf : FramedBy (insertAll (hist.map fun kv => (CaseMap.lower kv.1, kv.2)) []) f) :
    (∃ v, (valuesOf b!"transfer-encoding" hist).getLast? = some v ∧ FinalChunked v ∧ f = .chunked) ∨
    (valuesOf b!"transfer-encoding" hist = [] ∧ ∃ v n, v ∈ valuesOf b!"content-length" hist ∧
      (∀ w ∈ valuesOf b!"content-length" hist, w = v) ∧ Numeral 10 v n ∧ f = .limited n) ∨
    (valuesOf b!"transfer-encoding" hist = [] ∧ valuesOf b!"content-length" hist = [] ∧ f = .tilClose) := by
  have hsorted : SortedNames (insertAll (hist.map fun kv => (CaseMap.lower kv.1, kv.2)) []) :=
    insertAll_sorted (by simp [SortedNames])
  have hmem : ∀ {name v : Bytes}, (name, v) ∈ insertAll (hist.map fun kv => (CaseMap.lower kv.1, kv.2)) [] ↔
      LastWith (fun k => CaseMap.lower k = name) hist v := by
    intro name v
    rw [← mapGet_iff hsorted, mapGet_insertAll, lastWith_map_lower]
  have hex : ∀ {name : Bytes}, valuesOf name hist ≠ [] →
      ∃ v, (name, v) ∈ insertAll (hist.map fun kv => (CaseMap.lower kv.1, kv.2)) [] := by
    intro name hn
    cases hg : mapGet name (insertAll (hist.map fun kv => (CaseMap.lower kv.1, kv.2)) []) with
    | some v => exact ⟨v, mapGet_mem hg⟩
    | none =>
      rw [mapGet_insertAll_none] at hg
      obtain ⟨v, hv⟩ := List.exists_mem_of_ne_nil _ hn
      obtain ⟨k, hk1, hk2⟩ := mem_valuesOf.1 hv
      exact absurd hk2 (hg _ (List.mem_map.2 ⟨(k, v), hk1, rfl⟩))
  by_cases ht0 : valuesOf b!"transfer-encoding" hist = []
  · cases hf with
    | chunked hm =>
      have := lastWith_valuesOf (hmem.1 hm)
      rw [ht0] at this
      simp at this
    | @limited v n _ hv hn =>
      have hv' := lastWith_valuesOf (hmem.1 hv)
      obtain ⟨k, hk, hk'⟩ := hp.length v hv'
      have : k = n := by
        have a := lengthText_iff.2 (show LengthText v n from hn)
        have b := lengthText_iff.2 (show LengthText v k from ⟨.inl hk, hk'⟩)
        rw [a] at b
        simpa using b.symm
      subst this
      exact .inr (.inl ⟨ht0, v, k, hv', fun w hw => hp.same w hw v hv', hk, rfl⟩)
    | tilClose _ hno =>
      refine .inr (.inr ⟨ht0, ?_, rfl⟩)
      refine Classical.byContradiction fun hcl0 => ?_
      obtain ⟨v, hv⟩ := hex hcl0
      exact absurd hv (hno v)
  · have hch : (b!"transfer-encoding", b!"chunked") ∈ insertAll (hist.map fun kv => (CaseMap.lower kv.1, kv.2)) [] := by
      obtain ⟨v, hv⟩ := hex ht0
      have := hp.coding v (lastWith_valuesOf (hmem.1 hv))
      rwa [this] at hv
    cases hf with
    | chunked _ =>
      obtain ⟨v, hv⟩ : ∃ v, (valuesOf b!"transfer-encoding" hist).getLast? = some v :=
        ⟨_, List.getLast?_eq_some_getLast ht0⟩
      refine .inl ⟨v, hv, ?_, rfl⟩
      rw [hp.coding v (List.mem_of_getLast? hv)]
      exact ⟨[], b!"chunked", [], by simp, .self _, by simp [Blanks], .inl (by simp [Blanks])⟩
    | limited h => exact absurd hch h
    | tilClose h => exact absurd hch h

/-- Requests with plain framing headers, at least one, are framed as the RFC says. Missing for the full property: all other
requests, see `C64_framing_false`. -/
theorem C64_framing_partial (c : Cfg) (s : σ) (m : HttpMethod) (target : Bytes) (raw : List Bytes)
    (hist : List (Bytes × Bytes)) (t' : List Ev) (ht : SendableTarget target)
    (hf : Folded raw (hist.map fun kv => kv.1 ++ [58, 32] ++ kv.2)) (hraw : ∀ l ∈ raw, RawLine l)
    (hc : ∀ kv ∈ hist, (58 : UInt8) ∉ kv.1) (hp : Plain hist)
    (hne : valuesOf b!"transfer-encoding" hist ≠ [] ∨ valuesOf b!"content-length" hist ≠ [])
    (hd : Delivers c (trace s)
      (utf8 (methodName m) ++ [32] ++ target ++ [32] ++ utf8 "HTTP/1.1" ++ [13, 10] ++ blockBytes raw) t') :
    ∃ r s', HttpRequest.deserialize c s = (.ok r, s') ∧ trace s' = t' ∧
      RfcRequest (valuesOf b!"transfer-encoding" hist) (valuesOf b!"content-length" hist) (some (framing r.body)) := by
  rw [utf8_http11] at hd
  have hline : RawLine (utf8 (methodName m) ++ [32] ++ target ++ [32] ++ b!"HTTP/1.1") := by
    obtain ⟨_, t2, _, _, t5⟩ := ht
    have hmt : IsText (utf8 (methodName m)) := by
      rw [methodName_bytes]; exact isText_ascii (by cases m <;> decide)
    have hmc : ¬ HasCrLf (utf8 (methodName m)) := by
      rw [methodName_bytes]; unfold HasCrLf; cases m <;> decide
    refine ⟨by simp, ?_, ?_⟩
    · rw [show utf8 (methodName m) ++ [32] ++ target ++ [32] ++ b!"HTTP/1.1" =
        utf8 (methodName m) ++ 32 :: (target ++ 32 :: b!"HTTP/1.1") by simp]
      exact not_hasCrLf_join (by decide) (by decide) hmc
        (not_hasCrLf_join (by decide) (by decide) t5 (by unfold HasCrLf; decide))
    · exact isText_append (isText_append (isText_append (isText_append hmt (isText_ascii (by decide))) t2)
        (isText_ascii (by decide))) (isText_ascii (by decide))
  obtain ⟨enc, n, s', h1, h2⟩ := head_hist hline (parseRequestLine_ok m ht) hf hraw hc (fun v hv => by
    obtain ⟨n, h1, h2⟩ := hp.length v (lastWith_valuesOf hv)
    exact ⟨n, .inl h1, h2⟩) hd
  have h3 : HttpRequest.deserialize c s = (.ok ⟨m, target, ⟨1, 1⟩, ⟨insertAll (hist.map fun kv => (CaseMap.lower kv.1, kv.2)) []⟩,
      HttpBody.new c enc n s'⟩, s') := by unfold HttpRequest.deserialize; rw [h1]
  refine ⟨_, s', h3, h2, ?_⟩
  rcases hp.framed (C20_request c s s' _ h3).1 with ⟨v, h4, h5, h6⟩ | ⟨h4, v, n, h5, h6, h7, h8⟩ | ⟨h4, h5, _⟩
  · rw [h6]; exact .chunked h4 h5
  · rw [h8]; exact .length h4 h5 h6 h7
  · rcases hne with h | h
    · exact absurd h4 h
    · exact absurd h5 h

/-- Exactly when a request is framed, or rejected, as the RFC says. -/
theorem C64_framing_iff (c : Cfg) (s : σ) (m : HttpMethod) (target : Bytes) (v : HttpVersion) (raw : List Bytes)
    (hist : List (Bytes × Bytes)) (t' : List Ev) (ht : SendableTarget target) (hv1 : v.major < 10) (hv2 : v.minor < 10)
    (hf : Folded raw (hist.map fun kv => kv.1 ++ [58, 32] ++ kv.2)) (hraw : ∀ l ∈ raw, RawLine l)
    (hc : ∀ kv ∈ hist, (58 : UInt8) ∉ kv.1)
    (hd : Delivers c (trace s)
      (utf8 (methodName m) ++ [32] ++ target ++ [32] ++ v.display ++ [13, 10] ++ blockBytes raw) t') :
    ((∃ r s', HttpRequest.deserialize c s = (.ok r, s') ∧ trace s' = t' ∧
        RfcRequest (valuesOf b!"transfer-encoding" hist) (valuesOf b!"content-length" hist) (some (framing r.body))) ∨
      ∃ e s', HttpRequest.deserialize c s = (.err e, s') ∧
        RfcRequest (valuesOf b!"transfer-encoding" hist) (valuesOf b!"content-length" hist) none) ↔
    RequestAgrees (valuesOf b!"transfer-encoding" hist) (valuesOf b!"content-length" hist) := by
  obtain ⟨_, _, w3, w4⟩ := version_text v hv1 hv2
  have hline : RawLine (utf8 (methodName m) ++ [32] ++ target ++ [32] ++ v.display) := by
    obtain ⟨_, t2, _, _, t5⟩ := ht
    have hmt : IsText (utf8 (methodName m)) := by
      rw [methodName_bytes]; exact isText_ascii (by cases m <;> decide)
    have hmc : ¬ HasCrLf (utf8 (methodName m)) := by
      rw [methodName_bytes]; unfold HasCrLf; cases m <;> decide
    have hvc : ¬ HasCrLf v.display := by rintro ⟨p, q, hpq⟩; apply w4; rw [← hpq]; simp
    refine ⟨by simp, ?_, ?_⟩
    · rw [show utf8 (methodName m) ++ [32] ++ target ++ [32] ++ v.display =
        utf8 (methodName m) ++ 32 :: (target ++ 32 :: v.display) by simp]
      exact not_hasCrLf_join (by decide) (by decide) hmc (not_hasCrLf_join (by decide) (by decide) t5 hvc)
    · exact isText_append (isText_append (isText_append (isText_append hmt (isText_ascii (by decide))) t2)
        (isText_ascii (by decide))) (isText_ascii w3)
  rcases head_hist_cases hline (parseRequestLine_version m ht v hv1 hv2) hf hraw hc hd with
    ⟨hlen, enc, n, s', h1, h2⟩ | ⟨w, e, s', hw, hbad, h1⟩
  · have h3 : HttpRequest.deserialize c s = (.ok ⟨m, target, v, ⟨insertAll (hist.map fun kv => (CaseMap.lower kv.1, kv.2)) []⟩,
        HttpBody.new c enc n s'⟩, s') := by unfold HttpRequest.deserialize; rw [h1]
    have hfr := framed_last (C20_request c s s' _ h3).1
    rw [h3]
    simp only [Prod.mk.injEq, Res.ok.injEq, reduceCtorEq, false_and, exists_false, or_false]
    constructor
    · rintro ⟨r, s1, ⟨rfl, rfl⟩, _, hr⟩
      rcases hfr with ⟨g1, g2⟩ | ⟨g1, u, k, g2, g3, g4⟩ | ⟨g1, g2, g3⟩
      · exact .chunked g1 hlen
      · rw [g4] at hr
        generalize hk : some (Framing.limited k) = f at hr
        cases hr with
        | length q1 q2 q3 q4 =>
          have := q3 u (List.mem_of_getLast? g2)
          subst this
          have := lengthText_plain g3 ⟨_, q4⟩
          exact .length q1 q2 q3 this.1 this.2
        | absent _ q => rw [q] at g2; simp at g2
        | _ => simp at hk
      · rw [g3] at hr
        generalize hk : some Framing.tilClose = f at hr
        cases hr <;> simp at hk
    · intro ha
      refine ⟨_, _, ⟨rfl, rfl⟩, h2, ?_⟩
      cases ha with
      | chunked a1 a2 =>
        rcases hfr with ⟨g1, g2⟩ | ⟨g1, _⟩ | ⟨g1, _⟩
        · rw [g2]; exact .chunked a1 finalChunked_chunked
        · exact absurd a1 g1
        · exact absurd a1 g1
      | length a1 a2 a3 a4 a5 =>
        rcases hfr with ⟨g1, g2⟩ | ⟨g1, u, k, g2, g3, g4⟩ | ⟨g1, g2, g3⟩
        · rw [a1] at g1; simp at g1
        · have := a3 u (List.mem_of_getLast? g2)
          subst this
          rw [g4, ← lengthText_digits g3 a4]
          exact .length a1 a2 a3 a4
        · rw [g2] at a2; simp at a2
      | rejected _ a2 a3 => exact absurd (hlen _ a2) a3
  · have h3 : HttpRequest.deserialize c s = (.err e, s') := by unfold HttpRequest.deserialize; rw [h1]
    rw [h3]
    simp only [Prod.mk.injEq, Res.err.injEq, reduceCtorEq, false_and, exists_false, false_or]
    constructor
    · rintro ⟨_, _, _, hr⟩
      exact .rejected hr hw hbad
    · intro ha
      refine ⟨e, s', ⟨rfl, rfl⟩, ?_⟩
      cases ha with
      | chunked _ a2 => exact absurd (a2 _ hw) hbad
      | length _ _ a3 a4 a5 =>
        have := a3 w (List.mem_of_getLast? hw)
        subst this
        exact absurd ⟨_, .inl a4, a5⟩ hbad
      | rejected a1 _ _ => exact a1

/-! ### C65 -/

/-- Exactly when a response is framed, or rejected, as the RFC says. -/
theorem C65_framing_iff (c : Cfg) (s : σ) (st : HttpStatus) (v : HttpVersion) (raw : List Bytes) (hist : List (Bytes × Bytes))
    (t' : List Ev) (hv1 : v.major < 10) (hv2 : v.minor < 10)
    (hf : Folded raw (hist.map fun kv => kv.1 ++ [58, 32] ++ kv.2)) (hraw : ∀ l ∈ raw, RawLine l)
    (hc : ∀ kv ∈ hist, (58 : UInt8) ∉ kv.1)
    (hd : Delivers c (trace s) (v.display ++ [32] ++ st.display ++ [13, 10] ++ blockBytes raw) t') :
    ((∃ r s', HttpResponse.deserialize c s = (.ok r, s') ∧ trace s' = t' ∧ r.status.toCode = st.toCode ∧
        RfcResponse st.toCode.toNat (valuesOf b!"transfer-encoding" hist) (valuesOf b!"content-length" hist)
          (some (framing r.body))) ∨
      ∃ e s', HttpResponse.deserialize c s = (.err e, s') ∧
        RfcResponse st.toCode.toNat (valuesOf b!"transfer-encoding" hist) (valuesOf b!"content-length" hist) none) ↔
    ResponseAgrees st.toCode.toNat (valuesOf b!"transfer-encoding" hist) (valuesOf b!"content-length" hist) := by
  obtain ⟨_, _, w3, w4⟩ := version_text v hv1 hv2
  have hline : RawLine (v.display ++ [32] ++ st.display) := by
    have hvc : ¬ HasCrLf v.display := by rintro ⟨p, q, hpq⟩; apply w4; rw [← hpq]; simp
    refine ⟨by simp, ?_, ?_⟩
    · rw [show v.display ++ [32] ++ st.display = v.display ++ 32 :: st.display by simp]
      exact not_hasCrLf_join (by decide) (by decide) hvc (status_display_noCrLf st)
    · exact isText_append (isText_append (isText_ascii w3) (isText_ascii (by decide)))
        (isText_ascii (status_display_valid st))
  have hst : (HttpStatus.fromCode st.toCode).toCode = st.toCode := C01_code_lossless st.toCode
  generalize hcode : st.toCode.toNat = code
  rcases head_hist_cases hline (parseStatusLine_version st v hv1 hv2) hf hraw hc hd with
    ⟨hlen, enc, n, s', h1, h2⟩ | ⟨w, e, s', hw, hbad, h1⟩
  · have h3 : HttpResponse.deserialize c s = (.ok ⟨v, HttpStatus.fromCode st.toCode,
        ⟨insertAll (hist.map fun kv => (CaseMap.lower kv.1, kv.2)) []⟩, HttpBody.new c enc n (BufReader.new c s')⟩, s') := by
      unfold HttpResponse.deserialize; rw [h1]
    have hfr := framed_last (C20_response c s s' _ h3).1
    rw [h3]
    simp only [Prod.mk.injEq, Res.ok.injEq, reduceCtorEq, false_and, exists_false, or_false]
    constructor
    · rintro ⟨r, s1, ⟨rfl, rfl⟩, _, _, hr⟩
      rcases hfr with ⟨g1, g2⟩ | ⟨g1, u, k, g2, g3, g4⟩ | ⟨g1, g2, g3⟩
      · rw [g2] at hr
        generalize hk : some Framing.chunked = f at hr
        cases hr with
        | chunked q1 => exact .chunked q1 g1 hlen
        | _ => simp at hk
      · rw [g4] at hr
        generalize hk : some (Framing.limited k) = f at hr
        cases hr with
        | bodiless q =>
          simp only [Option.some.injEq, Framing.limited.injEq] at hk
          subst hk
          exact .bodiless q g1 g2 g3
        | length q0 q1 q2 q3 q4 =>
          have := q3 u (List.mem_of_getLast? g2)
          subst this
          have := lengthText_plain g3 ⟨_, q4⟩
          exact .length q0 q1 q2 q3 this.1 this.2
        | _ => simp at hk
      · rw [g3] at hr
        generalize hk : some Framing.tilClose = f at hr
        cases hr with
        | unknownCoding q1 q2 q3 => exact .close q1 g2 fun v hv => by rw [hv, Option.some.injEq] at q2; exact q2 ▸ q3
        | absent q1 q2 _ => exact .close q1 g2 fun v hv => by rw [q2] at hv; simp at hv
        | _ => simp at hk
    · intro ha
      refine ⟨_, _, ⟨rfl, rfl⟩, h2, hst, ?_⟩
      cases ha with
      | bodiless a1 a2 a3 a4 =>
        rcases hfr with ⟨g1, g2⟩ | ⟨g1, u, k, g2, g3, g4⟩ | ⟨g1, g2, g3⟩
        · exact absurd g1 a2
        · rw [a3, Option.some.injEq] at g2
          subst g2
          have e0 := lengthText_iff.2 g3
          rw [lengthText_iff.2 a4] at e0
          simp only [Option.some.injEq] at e0
          rw [g4, ← e0]
          exact .bodiless a1
        · rw [g2] at a3; simp at a3
      | chunked a0 a1 a2 =>
        rcases hfr with ⟨g1, g2⟩ | ⟨g1, _⟩ | ⟨g1, _⟩
        · rw [g2]; exact .chunked a0 a1 finalChunked_chunked
        · exact absurd a1 g1
        · exact absurd a1 g1
      | length a0 a1 a2 a3 a4 a5 =>
        rcases hfr with ⟨g1, g2⟩ | ⟨g1, u, k, g2, g3, g4⟩ | ⟨g1, g2, g3⟩
        · rw [a1] at g1; simp at g1
        · have := a3 u (List.mem_of_getLast? g2)
          subst this
          rw [g4, ← lengthText_digits g3 a4]
          exact .length a0 a1 a2 a3 a4
        · rw [g2] at a2; simp at a2
      | close a0 a1 a2 =>
        rcases hfr with ⟨g1, g2⟩ | ⟨g1, u, k, g2, g3, g4⟩ | ⟨g1, g2, g3⟩
        · exact absurd finalChunked_chunked (a2 _ g1)
        · rw [a1] at g2; simp at g2
        · rw [g3]
          by_cases hte : valuesOf b!"transfer-encoding" hist = []
          · exact .absent a0 hte a1
          · exact .unknownCoding a0 (List.getLast?_eq_some_getLast hte) (a2 _ (List.getLast?_eq_some_getLast hte))
      | rejected _ a2 a3 => exact absurd (hlen _ a2) a3
  · have h3 : HttpResponse.deserialize c s = (.err e, s') := by unfold HttpResponse.deserialize; rw [h1]
    rw [h3]
    simp only [Prod.mk.injEq, Res.err.injEq, reduceCtorEq, false_and, exists_false, false_or]
    constructor
    · rintro ⟨_, _, _, hr⟩
      exact .rejected hr hw hbad
    · intro ha
      refine ⟨e, s', ⟨rfl, rfl⟩, ?_⟩
      cases ha with
      | bodiless _ _ a3 a4 => rw [hw, Option.some.injEq] at a3; exact absurd ⟨0, a3 ▸ a4⟩ hbad
      | chunked _ _ a2 => exact absurd (a2 _ hw) hbad
      | length _ _ _ a3 a4 a5 =>
        have := a3 w (List.mem_of_getLast? hw)
        subst this
        exact absurd ⟨_, .inl a4, a5⟩ hbad
      | close _ a1 _ => rw [a1] at hw; simp at hw
      | rejected a1 _ _ => exact a1

/-- Responses with plain framing headers, or none, are framed as the RFC says, if their status allows a body. Missing for the
full property: `C65_framing_false`. -/
theorem C65_framing_partial (c : Cfg) (s : σ) (st : HttpStatus) (raw : List Bytes) (hist : List (Bytes × Bytes)) (t' : List Ev)
    (hf : Folded raw (hist.map fun kv => kv.1 ++ [58, 32] ++ kv.2)) (hraw : ∀ l ∈ raw, RawLine l)
    (hc : ∀ kv ∈ hist, (58 : UInt8) ∉ kv.1) (hp : Plain hist) (hb : ¬ Bodiless st.toCode.toNat)
    (hd : Delivers c (trace s) (utf8 "HTTP/1.1" ++ [32] ++ st.display ++ [13, 10] ++ blockBytes raw) t') :
    ∃ r s', HttpResponse.deserialize c s = (.ok r, s') ∧ trace s' = t' ∧ r.status.toCode = st.toCode ∧
      RfcResponse r.status.toCode.toNat (valuesOf b!"transfer-encoding" hist) (valuesOf b!"content-length" hist)
        (some (framing r.body)) := by
  rw [utf8_http11] at hd
  have hline : RawLine (b!"HTTP/1.1" ++ [32] ++ st.display) := by
    refine ⟨by simp, ?_, ?_⟩
    · rw [show b!"HTTP/1.1" ++ [32] ++ st.display = b!"HTTP/1.1" ++ 32 :: st.display by simp]
      exact not_hasCrLf_join (by decide) (by decide) (by unfold HasCrLf; decide) (status_display_noCrLf st)
    · exact isText_append (isText_ascii (by decide)) (isText_ascii (status_display_valid st))
  obtain ⟨enc, n, s', h1, h2⟩ := head_hist hline (parseStatusLine_ok st) hf hraw hc (fun v hv => by
    obtain ⟨n, h1, h2⟩ := hp.length v (lastWith_valuesOf hv)
    exact ⟨n, .inl h1, h2⟩) hd
  have hst : (HttpStatus.fromCode st.toCode).toCode = st.toCode := C01_code_lossless st.toCode
  have h3 : HttpResponse.deserialize c s = (.ok ⟨⟨1, 1⟩, HttpStatus.fromCode st.toCode,
      ⟨insertAll (hist.map fun kv => (CaseMap.lower kv.1, kv.2)) []⟩, HttpBody.new c enc n (BufReader.new c s')⟩, s') := by
    unfold HttpResponse.deserialize; rw [h1]
  refine ⟨_, s', h3, h2, hst, ?_⟩
  rw [show (HttpStatus.fromCode st.toCode).toCode = st.toCode from hst]
  rcases hp.framed (C20_response c s s' _ h3).1 with ⟨v, h4, h5, h6⟩ | ⟨h4, v, n, h5, h6, h7, h8⟩ | ⟨h4, h5, h6⟩
  · rw [h6]; exact .chunked hb h4 h5
  · rw [h8]; exact .length hb h4 h5 h6 h7
  · rw [h6]; exact .absent hb h4 h5

end

/-- Likewise the rules for responses. -/
theorem C65_rfc_unique {code : Nat} {te cl : List Bytes} {f g : Option Framing} (hf : RfcResponse code te cl f)
    (hg : RfcResponse code te cl g) : f = g := by
  have nt : ∀ {v : Bytes}, te = [] → te.getLast? = some v → False := by rintro v rfl h; simp at h
  cases hf with
  | bodiless hb => cases hg with
    | bodiless => rfl
    | _ => contradiction
  | chunked _ h1 h2 => cases hg with
    | bodiless => contradiction
    | chunked => rfl
    | unknownCoding _ h3 h4 => rw [h1] at h3; cases h3; exact absurd h2 h4
    | _ => exact (nt (by assumption) h1).elim
  | unknownCoding _ h1 h2 => cases hg with
    | bodiless => contradiction
    | chunked _ h3 h4 => rw [h1] at h3; cases h3; exact absurd h4 h2
    | unknownCoding => rfl
    | _ => exact (nt (by assumption) h1).elim
  | conflict _ h1 h2 h3 h4 => cases hg with
    | bodiless => contradiction
    | chunked _ h5 => exact (nt h1 h5).elim
    | unknownCoding _ h5 => exact (nt h1 h5).elim
    | length _ _ _ h6 _ => exact absurd ((h6 _ h2).trans (h6 _ h3).symm) h4
    | absent _ _ h6 => rw [h6] at h2; simp at h2
    | _ => rfl
  | invalid _ h1 h2 h3 => cases hg with
    | bodiless => contradiction
    | chunked _ h5 => exact (nt h1 h5).elim
    | unknownCoding _ h5 => exact (nt h1 h5).elim
    | length _ _ _ h6 h7 => exact absurd ⟨_, h6 _ h2 ▸ h7⟩ h3
    | absent _ _ h6 => rw [h6] at h2; simp at h2
    | _ => rfl
  | length _ h1 h2 h3 h4 => cases hg with
    | bodiless => contradiction
    | chunked _ h5 => exact (nt h1 h5).elim
    | unknownCoding _ h5 => exact (nt h1 h5).elim
    | conflict _ _ h5 h6 h7 => exact absurd ((h3 _ h5).trans (h3 _ h6).symm) h7
    | invalid _ _ h5 h6 => exact absurd ⟨_, (h3 _ h5).symm ▸ h4⟩ h6
    | length _ _ h5 _ h6 =>
      rw [h3 _ h5] at h6
      rw [h4.toFrom.unique h6.toFrom]
    | absent _ _ h5 => rw [h5] at h2; simp at h2
  | absent _ h1 h2 => cases hg with
    | bodiless => contradiction
    | chunked _ h5 => exact (nt h1 h5).elim
    | unknownCoding _ h5 => exact (nt h1 h5).elim
    | absent => rfl
    | conflict _ _ h5 => rw [h2] at h5; simp at h5
    | invalid _ _ h5 => rw [h2] at h5; simp at h5
    | length _ _ h5 => rw [h2] at h5; simp at h5

/-- The framing of the request in `bs`, if it parses. -/
def framingOf (c : Cfg) (bs : Bytes) : Option Framing :=
  let _ := asciiCase
  match HttpRequest.deserialize c (Wire.mk [.data bs]) with
  | (.ok r, _) => some (framing r.body)
  | _ => none

/-- False in general: of two different lengths the last one counts; a sign in front of a length is accepted; an unknown
coding is ignored, and so is `chunked` in other case; and a request with neither header has a body that runs to the end of
the stream. -/
theorem C64_framing_false (c : Cfg) :
    (RfcRequest [] [b!"5", b!"6"] none ∧
      framingOf c b!"PUT / HTTP/1.1\r\ncontent-length: 5\r\ncontent-length: 6\r\n\r\n" = some (.limited 6)) ∧
    (RfcRequest [] [b!"+5"] none ∧ framingOf c b!"PUT / HTTP/1.1\r\ncontent-length: +5\r\n\r\n" = some (.limited 5)) ∧
    (RfcRequest [b!"gzip"] [b!"5"] none ∧
      framingOf c b!"PUT / HTTP/1.1\r\ncontent-length: 5\r\ntransfer-encoding: gzip\r\n\r\n" = some (.limited 5)) ∧
    (RfcRequest [b!"Chunked"] [] (some .chunked) ∧
      framingOf c b!"PUT / HTTP/1.1\r\ntransfer-encoding: Chunked\r\n\r\n" = some .tilClose) ∧
    (RfcRequest [] [] (some (.limited 0)) ∧ framingOf c b!"GET / HTTP/1.1\r\n\r\n" = some .tilClose) := by
  refine ⟨⟨.conflict rfl (v := b!"5") (w := b!"6") (by simp) (by simp) (by decide), ?_⟩,
    ⟨.invalid rfl (v := b!"+5") (by simp) ?_, ?_⟩, ⟨.unknownCoding (v := b!"gzip") rfl ?_, ?_⟩,
    ⟨.chunked (v := b!"Chunked") rfl ?_, ?_⟩, ⟨.absent rfl rfl, ?_⟩⟩
  · rcases c with ⟨_ | _⟩ <;> decide +kernel
  · rintro ⟨n, hn⟩
    obtain ⟨d, hd⟩ := hn.digits 43 (by simp)
    generalize hb : (43 : UInt8) = b at hd
    cases hd with
    | dec d h1 h2 =>
      have := congrArg UInt8.toNat hb
      simp at this
      omega
    | lower d h1 h2 h3 => omega
    | upper d h1 h2 h3 => omega
  · rcases c with ⟨_ | _⟩ <;> decide +kernel
  · rintro ⟨pre, w, post, h, hw, _⟩
    have h1 := hw.length
    have h2 := congrArg List.length h
    simp only [List.length_append, List.length_cons, List.length_nil] at h1 h2
    omega
  · rcases c with ⟨_ | _⟩ <;> decide +kernel
  · refine ⟨[], b!"Chunked", [], by simp, .cons (.inr (.inl ⟨2, by omega, rfl, rfl⟩)) (.self _), by simp [Blanks],
      .inl (by simp [Blanks])⟩
  · rcases c with ⟨_ | _⟩ <;> decide +kernel
  · rcases c with ⟨_ | _⟩ <;> decide +kernel

theorem numeral_12 : Numeral 10 b!"12" 12 :=
  .snoc (ds := [49]) (.one (.dec 1 (by omega) (by omega))) (.dec 2 (by omega) (by omega))

/-- Witness for `C64_framing_partial`: a repeated length in two spellings of the name, and a coding beside it. -/
example : let _ := asciiCase
    let hist := [(b!"Content-Length", b!"12"), (b!"Transfer-encoding", b!"chunked"), (b!"content-length", b!"12")]
    Plain hist ∧ valuesOf b!"transfer-encoding" hist = [b!"chunked"] ∧ valuesOf b!"content-length" hist = [b!"12", b!"12"] ∧
    framingOf ⟨true⟩ b!"PUT / HTTP/1.1\r\nContent-Length: 12\r\nTransfer-encoding: chunked\r\ncontent-length: 12\r\n\r\n" =
      some .chunked := by
  intro inst hist
  have h1 : valuesOf b!"transfer-encoding" hist = [b!"chunked"] := by decide +kernel
  have h2 : valuesOf b!"content-length" hist = [b!"12", b!"12"] := by decide +kernel
  refine ⟨⟨by rw [h1]; simp, ?_, by rw [h2]; simp⟩, h1, h2, by decide +kernel⟩
  rw [h2]
  simp only [List.mem_cons, List.not_mem_nil, or_false, or_self]
  rintro v rfl
  exact ⟨12, numeral_12, by decide⟩

/-- The status and framing of the response in `bs`, if it parses. -/
def responseFramingOf (c : Cfg) (bs : Bytes) : Option (Nat × Framing) :=
  let _ := asciiCase
  match HttpResponse.deserialize c (Wire.mk [.data bs]) with
  | (.ok r, _) => some (r.status.toCode.toNat, framing r.body)
  | _ => none

/-- False in general: a 204, or an interim 100, without headers has a body that runs to the end of the stream; a 304 has
the body announced by its length, which is not sent; of two different lengths the last one counts; an unknown coding is
ignored when there is a length beside it. -/
theorem C65_framing_false (c : Cfg) :
    (RfcResponse 204 [] [] (some (.limited 0)) ∧
      responseFramingOf c b!"HTTP/1.1 204 No Content\r\n\r\n" = some (204, .tilClose)) ∧
    (RfcResponse 100 [] [] (some (.limited 0)) ∧
      responseFramingOf c b!"HTTP/1.1 100 Continue\r\n\r\n" = some (100, .tilClose)) ∧
    (RfcResponse 304 [] [b!"5"] (some (.limited 0)) ∧
      responseFramingOf c b!"HTTP/1.1 304 Not Modified\r\ncontent-length: 5\r\n\r\n" = some (304, .limited 5)) ∧
    (RfcResponse 200 [] [b!"5", b!"6"] none ∧
      responseFramingOf c b!"HTTP/1.1 200 OK\r\ncontent-length: 5\r\ncontent-length: 6\r\n\r\n" = some (200, .limited 6)) ∧
    (RfcResponse 200 [b!"gzip"] [b!"5"] (some .tilClose) ∧
      responseFramingOf c b!"HTTP/1.1 200 OK\r\ncontent-length: 5\r\ntransfer-encoding: gzip\r\n\r\n" =
        some (200, .limited 5)) := by
  refine ⟨⟨.bodiless (by simp [Bodiless]), ?_⟩, ⟨.bodiless (by simp [Bodiless]), ?_⟩, ⟨.bodiless (by simp [Bodiless]), ?_⟩,
    ⟨.conflict (by simp [Bodiless]) rfl (v := b!"5") (w := b!"6") (by simp) (by simp) (by decide), ?_⟩,
    ⟨.unknownCoding (v := b!"gzip") (by simp [Bodiless]) rfl ?_, ?_⟩⟩
  · rcases c with ⟨_ | _⟩ <;> decide +kernel
  · rcases c with ⟨_ | _⟩ <;> decide +kernel
  · rcases c with ⟨_ | _⟩ <;> decide +kernel
  · rcases c with ⟨_ | _⟩ <;> decide +kernel
  · rintro ⟨pre, w, post, h, hw, _⟩
    have h1 := hw.length
    have h2 := congrArg List.length h
    simp only [List.length_append, List.length_cons, List.length_nil] at h1 h2
    omega
  · rcases c with ⟨_ | _⟩ <;> decide +kernel

/-- Witness for `C65_framing_partial`. -/
example : let _ := asciiCase
    let hist := [(b!"Server", b!"x"), (b!"CONTENT-LENGTH", b!"12")]
    Plain hist ∧ valuesOf b!"content-length" hist = [b!"12"] ∧ ¬ Bodiless HttpStatus.OK.toCode.toNat ∧
    responseFramingOf ⟨false⟩ b!"HTTP/1.1 200 OK\r\nServer: x\r\nCONTENT-LENGTH: 12\r\n\r\n" = some (200, .limited 12) := by
  intro inst hist
  have h1 : valuesOf b!"transfer-encoding" hist = [] := by decide +kernel
  have h2 : valuesOf b!"content-length" hist = [b!"12"] := by decide +kernel
  refine ⟨⟨by rw [h1]; simp, ?_, by rw [h2]; simp⟩, h2, by simp [Bodiless, HttpStatus.toCode], by decide +kernel⟩
  rw [h2]
  simp only [List.mem_cons, List.not_mem_nil, or_false]
  rintro v rfl
  exact ⟨12, numeral_12, by decide⟩

/-- Witness for `C64_framing_iff`: header values of all three kinds, and some of none. -/
example : RequestAgrees [b!"gzip", b!"chunked"] [b!"12"] ∧ RequestAgrees [] [b!"12", b!"12"] ∧ RequestAgrees [b!"gzip"] [b!"5", b!""] ∧
    ¬ RequestAgrees [] [] ∧ ¬ RequestAgrees [b!"gzip, chunked"] [] ∧
    framingOf ⟨true⟩ b!"PUT / HTTP/1.1\r\nTransfer-Encoding: gzip\r\ncontent-length: 12\r\ntransfer-encoding:\r\n chunked\r\n\r\n" =
      some .chunked ∧
    framingOf ⟨true⟩ b!"PUT / HTTP/1.1\r\ntransfer-encoding: gzip\r\ncontent-length: 5\r\ncontent-length: \r\n\r\n" = none := by
  refine ⟨.chunked (by simp) ?_, .length (v := b!"12") rfl (by simp) (by simp) numeral_12 (by decide),
    .rejected (v := b!"") (.unknownCoding (v := b!"gzip") (by simp) ?_) (by simp) ?_, ?_, ?_, by decide +kernel, by decide +kernel⟩
  · simp only [List.getLast?_singleton, Option.some.injEq]
    rintro v rfl
    exact ⟨12, .inl numeral_12, by decide⟩
  · rintro ⟨pre, w, post, h, hw, _⟩
    have h1 := hw.length
    have h2 := congrArg List.length h
    simp only [List.length_append, List.length_cons, List.length_nil] at h1 h2
    omega
  · rintro ⟨n, h1 | ⟨_, h1, _⟩, _⟩
    · exact h1.ne_nil rfl
    · simp at h1
  · intro h
    cases h with
    | chunked h => simp at h
    | length _ h => simp at h
    | rejected _ h => simp at h
  · intro h
    cases h with
    | chunked h => simp at h
    | length h => simp at h
    | rejected _ h => simp at h

/-- Witness for `C65_framing_iff`: a 204 that says it has no body, and one that does not; a response to the end of the stream. -/
example : ResponseAgrees 204 [] [b!"+0"] ∧ ¬ ResponseAgrees 204 [] [] ∧ ResponseAgrees 200 [b!"gzip"] [] ∧
    responseFramingOf ⟨true⟩ b!"HTTP/1.1 204 No Content\r\nContent-Length: +0\r\n\r\n" = some (204, .limited 0) ∧
    responseFramingOf ⟨false⟩ b!"HTTP/1.0 200 OK\r\ntransfer-encoding: gzip\r\n\r\n" = some (200, .tilClose) := by
  refine ⟨.bodiless (v := b!"+0") (.inr (.inl rfl)) (by simp) (by simp)
      ⟨.inr ⟨b!"0", rfl, .one (.dec 0 (by omega) (by omega))⟩, by decide⟩, ?_, .close (by simp [Bodiless]) rfl ?_,
    by decide +kernel, by decide +kernel⟩
  · intro h
    cases h with
    | bodiless _ _ h => simp at h
    | chunked _ h => simp at h
    | length _ _ h => simp at h
    | close h => exact h (.inr (.inl rfl))
    | rejected _ h => simp at h
  · simp only [List.getLast?_singleton, Option.some.injEq]
    rintro v rfl ⟨pre, w, post, h, hw, _⟩
    have h1 := hw.length
    have h2 := congrArg List.length h
    simp only [List.length_append, List.length_cons, List.length_nil] at h1 h2
    omega

end HttpIo
