import Verif.Lemmas.Map
import Verif.Lemmas.Stream
import Verif.Lemmas.Parser
import Verif.Lemmas.Utf8Spec

/-! Header lines and header blocks. -/

namespace HttpIo
open Spec

theorem findSub_colon {k rest : Bytes} (hk : (58 : UInt8) ∉ k) : findSub b!":" (k ++ 58 :: rest) = some k.length := by
  induction k with
  | nil => simp [findSub]
  | cons b k ih =>
    simp only [List.mem_cons, not_or] at hk
    rw [List.cons_append, findSub]
    have : ([58] : Bytes).isPrefixOf (b :: (k ++ 58 :: rest)) = false := by
      simp [List.isPrefixOf, hk.1]
    rw [this, ih hk.2]; simp

theorem findSub_colon_none {k : Bytes} (hk : (58 : UInt8) ∉ k) : findSub b!":" k = none := by
  induction k with
  | nil => simp [findSub]
  | cons b k ih =>
    simp only [List.mem_cons, not_or] at hk
    rw [findSub]
    have : ([58] : Bytes).isPrefixOf (b :: k) = false := by
      simp [List.isPrefixOf, hk.1]
    rw [this, ih hk.2]; simp

theorem mem_split_first {b : UInt8} {l : Bytes} (h : b ∈ l) : ∃ k rest, l = k ++ b :: rest ∧ b ∉ k := by
  induction l with
  | nil => simp at h
  | cons a l ih =>
    by_cases hab : b = a
    · exact ⟨[], l, by simp [hab], by simp⟩
    · simp only [List.mem_cons, hab, false_or] at h
      obtain ⟨k, rest, h1, h2⟩ := ih h
      exact ⟨a :: k, rest, by simp [h1], by simp [hab, h2]⟩

section
variable [CaseMap]

/-- The four outcomes of `HttpHeader::deserialize`. -/
theorem HttpHeader.deserialize_noColon {line : Bytes} (hv : validUtf8 line = true) (h : (58 : UInt8) ∉ line) :
    ∃ e, HttpHeader.deserialize line = .err e := by
  unfold HttpHeader.deserialize Parser.new Parser.parseUntil
  split
  · rename_i e _ heq; exact ⟨e, rfl⟩
  · rename_i heq
    split at heq
    · simp at heq
    · have h0 := sliceFrom_append (pre := []) hv
      simp only [List.nil_append, List.length_nil] at h0
      rw [h0] at heq
      simp only [findSub_colon_none h] at heq
      simp at heq
  · rename_i heq
    split at heq
    · simp at heq
    · have h0 := sliceFrom_append (pre := []) hv
      simp only [List.nil_append, List.length_nil] at h0
      rw [h0] at heq
      simp only [findSub_colon_none h] at heq
      simp at heq

theorem HttpHeader.parseUntil_colon {k rest : Bytes} (hv : validUtf8 (k ++ 58 :: rest) = true) (hk : (58 : UInt8) ∉ k) :
    (Parser.new (k ++ 58 :: rest)).parseUntil b!":" = (.ok k, ⟨k ++ 58 :: rest, k.length⟩) := by
  unfold Parser.new Parser.parseUntil
  have h0 := sliceFrom_append (pre := []) hv
  simp only [List.nil_append, List.length_nil] at h0
  rw [if_neg (by simp)]
  dsimp only
  rw [h0]
  dsimp only
  rw [findSub_colon hk]
  simp

theorem HttpHeader.deserialize_ok {k v : Bytes} (hv : validUtf8 (k ++ b!": " ++ v) = true) (hk : (58 : UInt8) ∉ k) :
    HttpHeader.deserialize (k ++ b!": " ++ v) = .ok ⟨CaseMap.lower k, v⟩ := by
  have hform : k ++ b!": " ++ v = k ++ 58 :: (32 :: v) := by simp
  have hv' := hv
  rw [hform] at hv'
  have hvk := (validUtf8_split (by decide) _ _ hv').2
  have hvv : validUtf8 v = true := by rwa [validUtf8_cons_ascii (by decide)] at hvk
  unfold HttpHeader.deserialize
  rw [hform, HttpHeader.parseUntil_colon hv' hk]
  dsimp only
  have h2 : validUtf8 (b!": " ++ v) = true := by
    rw [show b!": " ++ v = 58 :: 32 :: v by rfl, validUtf8_cons_ascii (by decide), validUtf8_cons_ascii (by decide)]
    exact hvv
  have he := Parser.expect_append (pre := k) (e := b!": ") (post := v) (by simp) h2 hvv
  simp only [List.cons_append, List.nil_append] at he
  rw [he]
  dsimp only
  unfold Parser.parseRemaining
  rw [if_neg (by simp)]
  dsimp only
  have h3 := sliceFrom_append (pre := k ++ b!": ") hvv
  simp only [List.append_assoc, List.cons_append, List.nil_append, List.length_append] at h3
  rw [h3]
  simp only [HttpHeader.new, CaseMap.lower_idem]

theorem HttpHeader.deserialize_end {k : Bytes} (hv : validUtf8 (k ++ b!":") = true) (hk : (58 : UInt8) ∉ k) :
    HttpHeader.deserialize (k ++ b!":") = .err .parse := by
  unfold HttpHeader.deserialize
  rw [show k ++ b!":" = k ++ 58 :: [] by rfl, HttpHeader.parseUntil_colon hv hk]
  dsimp only
  unfold Parser.expect
  rw [if_neg (by simp)]
  dsimp only
  have h3 := slice_append3 (a := k) (b := [58]) (d := []) (by decide) (by decide)
  simp only [List.append_nil, List.length_singleton] at h3
  rw [show min (k ++ [58] : Bytes).length (k.length + ([58, 32] : Bytes).length) = k.length + 1 by simp, h3]
  simp

theorem HttpHeader.deserialize_bad {k rest : Bytes} {b : UInt8} (hv : validUtf8 (k ++ 58 :: b :: rest) = true)
    (hk : (58 : UInt8) ∉ k) (hb : b ≠ 32) :
    HttpHeader.deserialize (k ++ 58 :: b :: rest) = if b < 0x80 then .err .parse else .panic := by
  unfold HttpHeader.deserialize
  rw [HttpHeader.parseUntil_colon hv hk]
  dsimp only
  unfold Parser.expect
  rw [if_neg (by simp)]
  dsimp only
  rw [show min (k ++ 58 :: b :: rest).length (k.length + ([58, 32] : Bytes).length) = k.length + 2 by simp]
  have hvr := (validUtf8_split (by decide) _ _ hv).2
  by_cases hlt : b < 0x80
  · have hrest : validUtf8 rest = true := by rwa [validUtf8_cons_ascii hlt] at hvr
    have h3 := slice_append3 (a := k) (b := [58, b]) (d := rest) (by
      rw [show [58, b] ++ rest = 58 :: b :: rest by rfl, validUtf8_cons_ascii (by decide)]; exact hvr) hrest
    simp only [List.cons_append, List.nil_append, List.length_cons, List.length_nil] at h3
    rw [h3]
    simp [hb, hlt]
  · have hge := hlt
    have : slice (k ++ 58 :: b :: rest) k.length (k.length + 2) = .panic := by
      unfold slice
      have hnb : isCharBoundary (k ++ 58 :: b :: rest) (k.length + 2) = false := by
        unfold isCharBoundary
        cases rest with
        | nil => 
          exfalso
          have h1 := hvr
          rw [validUtf8_cons, if_neg hge] at h1
          simp at h1
        | cons b1 rest =>
          have hcont : isCont b1 = true := by
            rw [validUtf8_cons, if_neg hge] at hvr
            split at hvr
            · simp at hvr; exact hvr.1
            · split at hvr
              · cases rest with
                | nil => simp at hvr
                | cons b2 rest =>
                  simp only [Bool.and_eq_true] at hvr
                  have h2 := hvr.1.1
                  rw [isCont_iff]
                  split at h2
                  · simp [u8le] at h2; omega
                  · split at h2
                    · simp [u8le] at h2; omega
                    · rwa [isCont_iff] at h2
              · split at hvr
                · cases rest with
                  | nil => simp at hvr
                  | cons b2 rest =>
                    cases rest with
                    | nil => simp at hvr
                    | cons b3 rest =>
                      simp only [Bool.and_eq_true] at hvr
                      have h2 := hvr.1.1.1
                      rw [isCont_iff]
                      split at h2
                      · simp [u8le] at h2; omega
                      · split at h2
                        · simp [u8le] at h2; omega
                        · rwa [isCont_iff] at h2
                · simp at hvr
          simp [hcont]
      rw [hnb]; simp
    rw [this, if_neg hlt]

/-- A header line is accepted exactly when its first colon is followed by a space. -/
theorem HttpHeader.deserialize_iff {line : Bytes} (hv : validUtf8 line = true) (hd : HttpHeader) :
    HttpHeader.deserialize line = .ok hd ↔ ∃ k v, HeaderLine line k v ∧ hd = ⟨CaseMap.lower k, v⟩ := by
  constructor
  · intro h
    by_cases hc : (58 : UInt8) ∈ line
    · obtain ⟨k, rest, rfl, hk⟩ := mem_split_first hc
      cases rest with
      | nil => rw [HttpHeader.deserialize_end hv hk] at h; simp at h
      | cons b rest =>
        by_cases hb : b = 32
        · subst hb
          have := HttpHeader.deserialize_ok (k := k) (v := rest) (by simpa using hv) hk
          rw [show k ++ b!": " ++ rest = k ++ 58 :: 32 :: rest by simp, h] at this
          simp only [Res.ok.injEq] at this
          exact ⟨k, rest, ⟨by simp, hk⟩, this⟩
        · rw [HttpHeader.deserialize_bad hv hk hb] at h
          split at h <;> simp at h
    · obtain ⟨e, he⟩ := HttpHeader.deserialize_noColon hv hc
      rw [he] at h; simp at h
  · rintro ⟨k, v, ⟨rfl, hk⟩, rfl⟩
    exact HttpHeader.deserialize_ok hv hk

end

/-! ### Blocks -/

theorem startsBlank_iff (l : Bytes) : (startsWith l b!" " || startsWith l b!"\t") = true ↔ StartsBlank l := by
  unfold startsWith StartsBlank
  cases l with
  | nil => simp [List.isPrefixOf]
  | cons b l =>
    simp only [List.isPrefixOf, Bool.and_true, Bool.or_eq_true, beq_iff_eq, List.cons.injEq]
    constructor
    · rintro (h | h)
      · exact ⟨b, l, ⟨rfl, rfl⟩, .inl h.symm⟩
      · exact ⟨b, l, ⟨rfl, rfl⟩, .inr h.symm⟩
    · rintro ⟨b', l', ⟨rfl, _⟩, h | h⟩
      · exact .inl h.symm
      · exact .inr h.symm

section
variable {σ : Type} [LawfulReader σ]

theorem crlfNext_line {c : Cfg} {s : σ} {l : Bytes} {t' : List Ev} (hl : RawLine l)
    (h : Delivers c (trace s) (l ++ [13, 10]) t') : ∃ s', crlfNext c s = (some (.ok l), s') ∧ trace s' = t' := by
  have := innerNext_eq (innerNextT_line hl.2.1 h)
  unfold crlfNext
  rcases hi : innerNext c s with ⟨r, s'⟩
  rw [hi] at this
  obtain ⟨h1, h2⟩ := this
  dsimp only at h1 h2
  have : lineOutcome l = .ok (some l) := by
    unfold lineOutcome
    rw [if_neg (by simp [hl.1]), if_pos ((validUtf8_iff l).2 hl.2.2)]
  rw [h1, this]
  exact ⟨s', rfl, h2⟩

theorem crlfNext_blank {c : Cfg} {s : σ} {t' : List Ev}
    (h : Delivers c (trace s) [13, 10] t') : ∃ s', crlfNext c s = (none, s') ∧ trace s' = t' := by
  have := innerNext_eq (innerNextT_line (l := []) (by simp [HasCrLf]) h)
  unfold crlfNext
  rcases hi : innerNext c s with ⟨r, s'⟩
  rw [hi] at this
  obtain ⟨h1, h2⟩ := this
  dsimp only at h1 h2
  rw [h1]
  exact ⟨s', rfl, h2⟩

theorem expectNext_line {c : Cfg} {s : σ} {l : Bytes} {t' : List Ev} (hl : RawLine l)
    (h : Delivers c (trace s) (l ++ [13, 10]) t') : ∃ s', expectNext c s = (.ok l, s') ∧ trace s' = t' := by
  have := innerNext_eq (innerNextT_line hl.2.1 h)
  unfold expectNext
  rcases hi : innerNext c s with ⟨r, s'⟩
  rw [hi] at this
  obtain ⟨h1, h2⟩ := this
  dsimp only at h1 h2
  have : lineOutcome l = .ok (some l) := by
    unfold lineOutcome
    rw [if_neg (by simp [hl.1]), if_pos ((validUtf8_iff l).2 hl.2.2)]
  rw [h1, this]
  exact ⟨s', rfl, h2⟩

/-- The bytes still to come after a line was taken: the next lines and the blank line. The first of them (or the
blank line) is what `gather` peeks. -/
theorem gather_block {c : Cfg} {s : σ} {t' : List Ev} {conts rest : List Bytes} (line : Bytes)
    (hconts : ∀ l ∈ conts, StartsBlank l) (hrest : ∀ l, rest.head? = some l → ¬ StartsBlank l)
    (hraw : ∀ l ∈ conts ++ rest, RawLine l)
    (h : Delivers c (trace s) (blockBytes (conts ++ rest)) t') :
    ∃ s', HttpHeaders.gather c line s = (line ++ conts.flatten, rest.head?.map .ok, s') ∧
      (∀ l tl, rest = l :: tl → Delivers c (trace s') (blockBytes tl) t') ∧ (rest = [] → trace s' = t') := by
  induction conts generalizing line s with
  | nil =>
    simp only [List.nil_append] at h
    cases rest with
    | nil =>
      obtain ⟨s', h1, h2⟩ := crlfNext_blank (by simpa [blockBytes] using h)
      unfold HttpHeaders.gather
      split
      · rename_i heq; rw [h1] at heq; simp at heq
      · rename_i heq; rw [h1] at heq; simp only [Prod.mk.injEq] at heq
        rw [← heq.1, ← heq.2]
        exact ⟨s', by simp, by simp, fun _ => h2⟩
    | cons l tl =>
      have hb : blockBytes (l :: tl) = (l ++ [13, 10]) ++ blockBytes tl := by simp [blockBytes]
      rw [hb] at h
      obtain ⟨m, hm1, hm2⟩ := h.split
      obtain ⟨s', h1, h2⟩ := crlfNext_line (hraw l (by simp)) hm1
      unfold HttpHeaders.gather
      split
      · rename_i heq; rw [h1] at heq
        simp only [Prod.mk.injEq, Option.some.injEq, Except.ok.injEq] at heq
        have hns := hrest l (by simp)
        rw [← startsBlank_iff] at hns
        rw [← heq.1, if_neg hns, ← heq.2]
        refine ⟨s', by simp, ?_, by simp⟩
        rintro l' tl' heq'
        simp only [List.cons.injEq] at heq'
        rw [← heq'.2, h2]; exact hm2
      · rename_i hno heq; rw [h1] at heq; simp only [Prod.mk.injEq] at heq
        exact absurd heq.1.symm (hno l)
  | cons a conts ih =>
    have hb : blockBytes (a :: conts ++ rest) = (a ++ [13, 10]) ++ blockBytes (conts ++ rest) := by simp [blockBytes]
    rw [hb] at h
    obtain ⟨m, hm1, hm2⟩ := h.split
    obtain ⟨s1, h1, h2⟩ := crlfNext_line (hraw a (by simp)) hm1
    unfold HttpHeaders.gather
    split
    · rename_i heq; rw [h1] at heq
      simp only [Prod.mk.injEq, Option.some.injEq, Except.ok.injEq] at heq
      rw [← heq.1, if_pos ((startsBlank_iff a).2 (hconts a (by simp))), ← heq.2]
      obtain ⟨s', h3, h4, h5⟩ := ih (line := line ++ a) (s := s1) (fun l hl => hconts l (by simp [hl]))
        (fun l hl => hraw l (by simp at hl ⊢; exact .inr hl)) (by rw [h2]; exact hm2)
      exact ⟨s', by rw [h3]; simp, h4, h5⟩
    · rename_i hno heq; rw [h1] at heq; simp only [Prod.mk.injEq] at heq
      exact absurd heq.1.symm (hno a)

variable [CaseMap]

/-- Parse every logical line, stopping at the first failure. -/
def parseLines : List Bytes → Res (List HttpHeader)
  | [] => .ok []
  | l :: ls =>
    match HttpHeader.deserialize l with
    | .ok hd => (parseLines ls).map (hd :: ·)
    | .err e => .err e
    | .panic => .panic

theorem deserializeLoop_block {c : Cfg} {raw logical : List Bytes} (hf : Folded raw logical) :
    ∀ {s : σ} {t' : List Ev} (acc : List HttpHeader), (∀ l ∈ raw, RawLine l) →
    (∀ l tl, raw = l :: tl → Delivers c (trace s) (blockBytes tl) t') → (raw = [] → trace s = t') →
    ∃ s', HttpHeaders.deserializeLoop c (raw.head?.map .ok) acc s = ((parseLines logical).map (acc ++ ·), s') ∧
      (∀ r, parseLines logical = .ok r → trace s' = t') := by
  induction hf with
  | nil =>
    intro s t' acc _ _ h2
    refine ⟨s, ?_, fun _ _ => h2 rfl⟩
    unfold HttpHeaders.deserializeLoop
    simp [parseLines, Res.map]
  | @line first conts rest logical hconts hrest hf ih =>
    intro s t' acc hraw hd _
    have hd' := hd first (conts ++ rest) rfl
    obtain ⟨s1, hg1, hg2, hg3⟩ := gather_block first hconts hrest
      (fun l hl => hraw l (by simp at hl ⊢; exact .inr hl)) hd'
    simp only [List.head?_cons, Option.map_some]
    unfold HttpHeaders.deserializeLoop
    simp only [hg1, parseLines]
    cases hdes : HttpHeader.deserialize (first ++ conts.flatten) with
    | err e => exact ⟨s1, by simp [Res.map], by simp⟩
    | panic => exact ⟨s1, by simp [Res.map], by simp⟩
    | ok hdr =>
      dsimp only
      obtain ⟨s2, h3, h4⟩ := ih (s := s1) (acc ++ [hdr])
        (fun l hl => hraw l (by simp; exact .inr (.inr hl))) hg2 hg3
      refine ⟨s2, ?_, ?_⟩
      · rw [h3]; cases parseLines logical <;> simp [Res.map]
      · intro r hr
        cases hp : parseLines logical with
        | ok r' => exact h4 r' hp
        | err e => rw [hp] at hr; simp [Res.map] at hr
        | panic => rw [hp] at hr; simp [Res.map] at hr

/-- Deserializing a header block delivered by the transport. -/
theorem deserialize_block {c : Cfg} {raw logical : List Bytes} (hf : Folded raw logical) {s : σ} {t' : List Ev}
    (hraw : ∀ l ∈ raw, RawLine l) (h : Delivers c (trace s) (blockBytes raw) t') :
    ∃ s', HttpHeaders.deserialize c s = ((parseLines logical).map HttpHeaders.fromVec, s') ∧
      (∀ r, parseLines logical = .ok r → trace s' = t') := by
  unfold HttpHeaders.deserialize
  cases raw with
  | nil =>
    obtain ⟨s1, h1, h2⟩ := crlfNext_blank (by simpa [blockBytes] using h)
    obtain ⟨s2, h3, h4⟩ := deserializeLoop_block hf (s := s1) (t' := t') (c := c) [] hraw (by simp) (fun _ => h2)
    rw [h1]
    simp only [List.head?_nil, Option.map_none] at h3
    dsimp only
    rw [h3]
    refine ⟨s2, ?_, h4⟩
    cases parseLines logical <;> simp [Res.map]
  | cons l tl =>
    have hb : blockBytes (l :: tl) = (l ++ [13, 10]) ++ blockBytes tl := by simp [blockBytes]
    rw [hb] at h
    obtain ⟨m, hm1, hm2⟩ := h.split
    obtain ⟨s1, h1, h2⟩ := crlfNext_line (hraw l (by simp)) hm1
    obtain ⟨s2, h3, h4⟩ := deserializeLoop_block hf (s := s1) (t' := t') (c := c) [] hraw
      (by rintro l' tl' he; simp only [List.cons.injEq] at he; rw [← he.2, h2]; exact hm2) (by simp)
    rw [h1]
    simp only [List.head?_cons, Option.map_some] at h3
    dsimp only
    rw [h3]
    refine ⟨s2, ?_, h4⟩
    cases parseLines logical <;> simp [Res.map]

end

/-- `fromVec` inserts the headers in order. -/
theorem fromVec_entries (l : List HttpHeader) :
    (HttpHeaders.fromVec l).entries = insertAll (l.map fun h => (h.key, h.value)) [] := by
  unfold HttpHeaders.fromVec insertAll
  simp [List.foldl_map]

theorem isText_append {a b : Bytes} (ha : IsText a) (hb : IsText b) : IsText (a ++ b) := by
  obtain ⟨va, h1, rfl⟩ := ha
  obtain ⟨vb, h2, rfl⟩ := hb
  exact ⟨va ++ vb, by
    intro v hv
    rcases List.mem_append.mp hv with hv | hv
    · exact h1 v hv
    · exact h2 v hv, by simp⟩

theorem folded_isText {raw logical : List Bytes} (hf : Folded raw logical) (hraw : ∀ l ∈ raw, RawLine l) :
    ∀ l ∈ logical, IsText l := by
  induction hf with
  | nil => simp
  | @line first conts rest logical hconts hrest hf ih =>
    intro l hl
    simp only [List.mem_cons] at hl
    rcases hl with rfl | hl
    · have hc : ∀ cs : List Bytes, (∀ x ∈ cs, IsText x) → IsText cs.flatten := by
        intro cs hcs
        induction cs with
        | nil => exact ⟨[], by simp, rfl⟩
        | cons x cs ih => rw [List.flatten_cons]; exact isText_append (hcs x (by simp)) (ih fun y hy => hcs y (by simp [hy]))
      exact isText_append (hraw first (by simp)).2.2 (hc conts fun x hx => (hraw x (by simp [hx])).2.2)
    · exact ih (fun x hx => hraw x (by simp [hx])) l hl


/-! ### Sendable headers -/

theorem hasCrLf_iff (l : List UInt8) : HasCrLf l ↔ ∃ i : Nat, l[i]? = some (13 : UInt8) ∧ l[i + 1]? = some (10 : UInt8) := by
  constructor
  · rintro ⟨p, q, rfl⟩
    refine ⟨p.length, ?_, ?_⟩ <;> simp
  · rintro ⟨i, h1, h2⟩
    obtain ⟨hi, e1⟩ := List.getElem?_eq_some_iff.1 h1
    obtain ⟨hj, e2⟩ := List.getElem?_eq_some_iff.1 h2
    refine ⟨l.take i, l.drop (i + 2), ?_⟩
    conv => rhs; rw [← List.take_append_drop i l, List.drop_eq_getElem_cons hi, List.drop_eq_getElem_cons hj, e1, e2]
    simp

/-- Joining two texts without CR LF at a byte that is neither CR nor LF. -/
theorem not_hasCrLf_join {a b : Bytes} {x : UInt8} (hx1 : x ≠ 13) (hx2 : x ≠ 10) (ha : ¬ HasCrLf a) (hb : ¬ HasCrLf b) :
    ¬ HasCrLf (a ++ x :: b) := by
  rw [hasCrLf_iff] at ha hb ⊢
  rintro ⟨i, h1, h2⟩
  rcases Nat.lt_trichotomy (i + 1) a.length with h | h | h
  · rw [List.getElem?_append_left (by omega)] at h1 h2
    exact ha ⟨i, h1, h2⟩
  · rw [h, List.getElem?_append_right (by omega)] at h2
    simp at h2; exact hx2 h2
  · rcases Nat.lt_trichotomy i a.length with h' | h' | h'
    · omega
    · subst h'; simp at h1; exact hx1 h1
    · rw [List.getElem?_append_right (by omega)] at h1 h2
      obtain ⟨j, hj⟩ : ∃ j, i - a.length = j + 1 := ⟨i - a.length - 1, by omega⟩
      have hj2 : i + 1 - a.length = j + 1 + 1 := by omega
      rw [hj] at h1; rw [hj2] at h2
      simp only [List.getElem?_cons_succ] at h1 h2
      exact hb ⟨j, h1, h2⟩

theorem not_hasCrLf_nil : ¬ HasCrLf [] := by simp [HasCrLf]

theorem isText_ascii {s : Bytes} (h : isAscii s = true) : IsText s := (validUtf8_iff s).1 (validUtf8_of_ascii h)

/-- The line of a sendable header is a physical line that does not begin with a blank. -/
theorem sendable_line {kv : Bytes × Bytes} (h : SendableHeader kv) :
    RawLine (kv.1 ++ [58, 32] ++ kv.2) ∧ ¬ StartsBlank (kv.1 ++ [58, 32] ++ kv.2) := by
  obtain ⟨h1, h2, h3, h4, h5, h6⟩ := h
  refine ⟨⟨by simp, ?_, isText_append (isText_append h1 (isText_ascii (by decide))) h5⟩, ?_⟩
  · rw [show kv.1 ++ [58, 32] ++ kv.2 = kv.1 ++ 58 :: ([] ++ 32 :: kv.2) by simp]
    exact not_hasCrLf_join (by decide) (by decide) h3 (not_hasCrLf_join (by decide) (by decide) not_hasCrLf_nil h6)
  · rintro ⟨b, rest, he, hb⟩
    cases hk : kv.1 with
    | nil =>
      rw [hk] at he
      simp only [List.nil_append, List.cons_append, List.cons.injEq] at he
      rw [← he.1] at hb; revert hb; decide
    | cons x k =>
      rw [hk] at he h4
      simp only [List.cons_append, List.cons.injEq] at he
      exact h4 ⟨x, k, rfl, by rw [he.1]; exact hb⟩

theorem folded_self {lines : List Bytes} (h : ∀ l ∈ lines, ¬ StartsBlank l) : Folded lines lines := by
  induction lines with
  | nil => exact .nil
  | cons l ls ih =>
    have := Folded.line (first := l) (conts := []) (rest := ls) (logical := ls) (by simp)
      (fun x hx => h x (by
        cases ls with
        | nil => simp at hx
        | cons y ys => simp only [List.head?_cons, Option.some.injEq] at hx; simp [← hx]))
      (ih fun x hx => h x (by simp [hx]))
    simpa using this

section
variable [CaseMap]

/-- Header lines parse to their names (lower-cased) and values. -/
theorem parseLines_ok {hist : List (Bytes × Bytes)} (hc : ∀ kv ∈ hist, (58 : UInt8) ∉ kv.1)
    (ht : ∀ kv ∈ hist, IsText (kv.1 ++ [58, 32] ++ kv.2)) :
    parseLines (hist.map fun kv => kv.1 ++ [58, 32] ++ kv.2) =
      .ok (hist.map fun kv => ⟨CaseMap.lower kv.1, kv.2⟩) := by
  induction hist with
  | nil => rfl
  | cons kv hist ih =>
    have h1 := HttpHeader.deserialize_ok (k := kv.1) (v := kv.2)
      ((validUtf8_iff _).2 (ht kv (by simp))) (hc kv (by simp))
    simp only [List.map_cons, parseLines]
    rw [h1, ih (fun x hx => hc x (by simp [hx])) (fun x hx => ht x (by simp [hx]))]
    rfl

theorem parseLines_iff {logical : List Bytes} (ht : ∀ l ∈ logical, IsText l) :
    (∃ r, parseLines logical = .ok r) ↔ ∀ l ∈ logical, ∃ k v, HeaderLine l k v := by
  induction logical with
  | nil => simp [parseLines]
  | cons l ls ih =>
    have ih := ih fun x hx => ht x (by simp [hx])
    have hd := HttpHeader.deserialize_iff ((validUtf8_iff l).2 (ht l (by simp)))
    simp only [parseLines, List.mem_cons, forall_eq_or_imp]
    rw [← ih]
    constructor
    · rintro ⟨r, hr⟩
      cases hdes : HttpHeader.deserialize l with
      | ok h =>
        obtain ⟨k, v, hkv, _⟩ := (hd h).1 hdes
        refine ⟨⟨k, v, hkv⟩, ?_⟩
        rw [hdes] at hr
        dsimp only at hr
        cases hp : parseLines ls with
        | ok r' => exact ⟨r', rfl⟩
        | err e => rw [hp] at hr; simp [Res.map] at hr
        | panic => rw [hp] at hr; simp [Res.map] at hr
      | err e => rw [hdes] at hr; simp at hr
      | panic => rw [hdes] at hr; simp at hr
    · rintro ⟨⟨k, v, hkv⟩, r, hr⟩
      rw [(hd ⟨CaseMap.lower k, v⟩).2 ⟨k, v, hkv, rfl⟩, hr]
      exact ⟨_, rfl⟩

/-- A block of header lines parses to the set that results from inserting them in order. -/
theorem deserialize_hist {σ : Type} [LawfulReader σ] {c : Cfg} {s : σ} {raw : List Bytes}
    {hist : List (Bytes × Bytes)} {t' : List Ev}
    (hf : Folded raw (hist.map fun kv => kv.1 ++ [58, 32] ++ kv.2)) (hraw : ∀ l ∈ raw, RawLine l)
    (hc : ∀ kv ∈ hist, (58 : UInt8) ∉ kv.1) (h : Delivers c (trace s) (blockBytes raw) t') :
    ∃ s', HttpHeaders.deserialize c s =
        (.ok ⟨insertAll (hist.map fun kv => (CaseMap.lower kv.1, kv.2)) []⟩, s') ∧ trace s' = t' := by
  obtain ⟨s', h1, h2⟩ := deserialize_block hf hraw h
  have htext := folded_isText hf hraw
  have hp := parseLines_ok hc (fun kv hkv => htext _ (List.mem_map.2 ⟨kv, hkv, rfl⟩))
  refine ⟨s', ?_, h2 _ hp⟩
  rw [h1, hp]
  simp only [Res.map, Prod.mk.injEq, Res.ok.injEq, and_true]
  have := fromVec_entries (hist.map fun kv => (⟨CaseMap.lower kv.1, kv.2⟩ : HttpHeader))
  rw [List.map_map] at this
  cases hh : HttpHeaders.fromVec (hist.map fun kv => (⟨CaseMap.lower kv.1, kv.2⟩ : HttpHeader)) with
  | mk e => rw [hh] at this; simp only at this; rw [this]; rfl

theorem blockBytes_map (hist : List (Bytes × Bytes)) :
    blockBytes (hist.map fun kv => kv.1 ++ [58, 32] ++ kv.2) = headerText hist ++ [13, 10] := by
  unfold blockBytes headerText
  rw [List.flatMap_map]

/-- Round trip of a sendable, sorted, lower-case header set. -/
theorem deserialize_headerText {σ : Type} [LawfulReader σ] {c : Cfg} {s : σ} {h : HttpHeaders} {t' : List Ev}
    (hs : SortedNames h.entries) (hl : ∀ kv ∈ h.entries, CaseMap.lower kv.1 = kv.1)
    (hw : ∀ kv ∈ h.entries, SendableHeader kv)
    (hd : Delivers c (trace s) (headerText h.entries ++ [13, 10]) t') :
    ∃ s', HttpHeaders.deserialize c s = (.ok h, s') ∧ trace s' = t' := by
  rw [← blockBytes_map] at hd
  obtain ⟨s', h1, h2⟩ := deserialize_hist (folded_self (by
      intro l hl
      obtain ⟨kv, hkv, rfl⟩ := List.mem_map.1 hl
      exact (sendable_line (hw kv hkv)).2)) (by
      intro l hl
      obtain ⟨kv, hkv, rfl⟩ := List.mem_map.1 hl
      exact (sendable_line (hw kv hkv)).1) (fun kv hkv => (hw kv hkv).2.1) hd
  refine ⟨s', ?_, h2⟩
  rw [h1]
  have : (h.entries.map fun kv => (CaseMap.lower kv.1, kv.2)) = h.entries := by
    conv => rhs; rw [← List.map_id h.entries]
    apply List.map_congr_left
    intro kv hkv
    rw [hl kv hkv]; rfl
  rw [this, insertAll_self hs]

theorem insert_fold (hist : List (Bytes × Bytes)) (h : HttpHeaders) :
    (hist.foldl (fun h kv => h.insert kv.1 kv.2) h).entries =
      insertAll (hist.map fun kv => (CaseMap.lower kv.1, kv.2)) h.entries := by
  induction hist generalizing h with
  | nil => rfl
  | cons kv hist ih => rw [List.foldl_cons, ih]; rfl

theorem lastWith_map_lower {hist : List (Bytes × Bytes)} {k v : Bytes} :
    LastWith (fun k' => k' = k) (hist.map fun kv => (CaseMap.lower kv.1, kv.2)) v ↔
      LastWith (fun k' => CaseMap.lower k' = k) hist v := by
  suffices ∀ rev : List (Bytes × Bytes),
      LastWith (fun k' => k' = k) (rev.reverse.map fun kv => (CaseMap.lower kv.1, kv.2)) v ↔
      LastWith (fun k' => CaseMap.lower k' = k) rev.reverse v by
    have := this hist.reverse; simpa using this
  intro rev
  induction rev with
  | nil => simp [LastWith]
  | cons kv rev ih =>
    rw [List.reverse_cons, List.map_append, List.map_singleton, lastWith_snoc]
    rw [show [kv] = [(kv.1, kv.2)] by rfl, lastWith_snoc, ih]

theorem lastWith_congr {p q : Bytes → Prop} {hist : List (Bytes × Bytes)} {v : Bytes}
    (h : ∀ kv ∈ hist, (p kv.1 ↔ q kv.1)) : LastWith p hist v ↔ LastWith q hist v := by
  have one : ∀ {p q : Bytes → Prop}, (∀ kv ∈ hist, (p kv.1 ↔ q kv.1)) → LastWith p hist v → LastWith q hist v := by
    rintro p q h ⟨pre, k, post, rfl, h1, h2⟩
    refine ⟨pre, k, post, rfl, (h (k, v) (by simp)).1 h1, fun kv hkv => ?_⟩
    exact fun hq => h2 kv hkv ((h kv (by simp [hkv])).2 hq)
  exact ⟨one h, one fun kv hkv => (h kv hkv).symm⟩

end

theorem pieces_flatten (h : HttpHeaders) : h.pieces.flatten = headerText h.entries := by
  unfold HttpHeaders.pieces headerText
  induction h.entries with
  | nil => rfl
  | cons kv l ih => simp [ih]

end HttpIo
