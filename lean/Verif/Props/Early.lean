import Verif.Spec.Early
import Verif.Props.Breaks
import Verif.Props.Verdict

/-! C166: a head that has gone wrong is refused without waiting for its end. -/

namespace HttpIo
open Spec

theorem line_first {l1 l2 x y : Bytes} (h1 : ¬ HasCrLf l1) (h2 : ¬ HasCrLf l2)
    (h : l1 ++ [13, 10] ++ x = l2 ++ [13, 10] ++ y) : l1 = l2 ∧ x = y := by
  have key : ∀ {l1 l2 x y : Bytes}, ¬ HasCrLf l2 → l1 ++ [13, 10] ++ x = l2 ++ [13, 10] ++ y → l2.length ≤ l1.length := by
    intro l1 l2 x y h2 h
    by_cases hlt : l1.length < l2.length
    · exfalso
      have hp : l1 ++ [13, 10] <+: l2 ++ [13] := by
        refine List.prefix_of_prefix_length_le (l₃ := l2 ++ [13, 10] ++ y) ⟨x, h⟩ ⟨10 :: y, by simp⟩ ?_
        simp; omega
      obtain ⟨z, hz⟩ := hp
      exact not_hasCrLf_cr h2 ⟨l1, z, hz⟩
    · omega
  have hlen : l1.length = l2.length := Nat.le_antisymm (key h1 h.symm) (key h2 h)
  have := List.append_inj (by simpa using h : l1 ++ ([13, 10] ++ x) = l2 ++ ([13, 10] ++ y)) hlen
  refine ⟨this.1, ?_⟩
  simpa using this.2

/-- The lines of a text are found in one way only. -/
theorem lines_first {raw' : List Bytes} {l q part : Bytes} (hl : ¬ HasCrLf l) (hp : ¬ HasCrLf part)
    (hr' : ∀ l ∈ raw', ¬ HasCrLf l) : ∀ {raw : List Bytes}, (∀ l ∈ raw, ¬ HasCrLf l) →
    raw'.flatMap (· ++ [13, 10]) ++ (l ++ [13, 10] ++ q) = raw.flatMap (· ++ [13, 10]) ++ part →
    ∃ raw'', raw = raw' ++ l :: raw'' ∧ q = raw''.flatMap (· ++ [13, 10]) ++ part := by
  induction raw' with
  | nil =>
    intro raw hr h
    cases raw with
    | nil =>
      simp only [List.flatMap_nil, List.nil_append] at h
      exact absurd ⟨l, q, h⟩ hp
    | cons a raw =>
      simp only [List.flatMap_nil, List.nil_append, List.flatMap_cons] at h
      rw [List.append_assoc (a ++ [13, 10])] at h
      obtain ⟨rfl, h2⟩ := line_first hl (hr a (by simp)) h
      exact ⟨raw, rfl, h2⟩
  | cons b raw' ih =>
    intro raw hr h
    cases raw with
    | nil =>
      simp only [List.flatMap_nil, List.nil_append, List.flatMap_cons] at h
      exact absurd ⟨b, raw'.flatMap (· ++ [13, 10]) ++ (l ++ [13, 10] ++ q), by rw [← h]; simp⟩ hp
    | cons a raw =>
      simp only [List.flatMap_cons] at h
      rw [List.append_assoc (a ++ [13, 10]), List.append_assoc (b ++ [13, 10])] at h
      obtain ⟨rfl, h2⟩ := line_first (hr' b (by simp)) (hr a (by simp)) h
      obtain ⟨raw'', rfl, h4⟩ := ih (fun l hl => hr' l (by simp [hl])) (fun l hl => hr l (by simp [hl])) h2
      exact ⟨raw'', rfl, h4⟩

theorem blanks_first {conts conts' rest rest' : List Bytes} (h1 : ∀ l ∈ conts, StartsBlank l)
    (h2 : ∀ l ∈ conts', StartsBlank l) (h3 : ∀ l, rest.head? = some l → ¬ StartsBlank l)
    (h4 : ∀ l, rest'.head? = some l → ¬ StartsBlank l) (h : conts ++ rest = conts' ++ rest') :
    conts = conts' ∧ rest = rest' := by
  induction conts generalizing conts' with
  | nil =>
    cases conts' with
    | nil => exact ⟨rfl, h⟩
    | cons b conts' =>
      simp only [List.nil_append] at h
      subst h
      exact absurd (h2 b (by simp)) (h3 b (by simp))
  | cons a conts ih =>
    cases conts' with
    | nil =>
      simp only [List.nil_append] at h
      subst h
      exact absurd (h1 a (by simp)) (h4 a (by simp))
    | cons b conts' =>
      simp only [List.cons_append, List.cons.injEq] at h
      obtain ⟨rfl, h⟩ := h
      obtain ⟨rfl, rfl⟩ := ih (fun l hl => h1 l (by simp [hl])) (fun l hl => h2 l (by simp [hl])) h
      exact ⟨rfl, rfl⟩

section
variable {c : Cfg} {σ : Type} [LawfulReader σ]

/-- Bytes that have arrived, and a failure in the place of the next one. -/
def probe (q : Bytes) (e : Err) (rest : List Ev) : List Ev := q.map .byte ++ .fault e :: rest

theorem probe_ne {q : Bytes} {e : Err} {rest : List Ev} : probe q e rest ≠ rest := by
  intro h
  have := congrArg List.length h
  simp [probe] at this
  omega

theorem probe_append (a b : Bytes) (e : Err) (rest : List Ev) : probe (a ++ b) e rest = a.map .byte ++ probe b e rest := by
  simp [probe]

theorem probe_next {e : Err} (he : ¬ Retried c e) {rest : List Ev} {q : Bytes} {s : σ} (hs : trace s = probe q e rest) :
    (¬ HasCrLf q ∧ (innerNext c s).1 = .error e ∧ trace (innerNext c s).2 = rest) ∨
    (∃ l q', ¬ HasCrLf l ∧ q = l ++ [13, 10] ++ q' ∧ (innerNext c s).1 = lineOutcome l ∧
      trace (innerNext c s).2 = probe q' e rest) := by
  by_cases hc : HasCrLf q
  · obtain ⟨l, q', rfl, hl⟩ := hasCrLf_first hc
    refine .inr ⟨l, q', hl, rfl, ?_⟩
    apply innerNext_eq
    rw [hs, probe_append]
    exact innerNextT_line hl (delivers_map c _ _)
  · refine .inl ⟨hc, ?_⟩
    apply innerNext_eq
    rw [hs, probe, innerNextT_prefix (delivers_map c _ _) [] (by simpa using hc)]
    exact innerNextT_fails ⟨he, [], rfl, by intro _ h; cases h⟩ _

/-- The three things a line can be. -/
theorem lineOutcome_cases (l : Bytes) (h : ¬ HasCrLf l) :
    (RawLine l ∧ lineOutcome l = .ok (some l)) ∨ (¬ RawLine l ∧ l = [] ∧ lineOutcome l = .ok none) ∨
    (¬ RawLine l ∧ l ≠ [] ∧ lineOutcome l = .error .utf8) := by
  unfold lineOutcome
  by_cases h0 : l = []
  · subst h0
    exact .inr (.inl ⟨fun hr => hr.1 rfl, rfl, by simp⟩)
  · rw [if_neg (by simpa using h0)]
    by_cases hv : IsText l
    · exact .inl ⟨⟨h0, h, hv⟩, by rw [if_pos ((validUtf8_iff _).2 hv)]⟩
    · exact .inr (.inr ⟨fun hr => hv hr.2.2, h0, by rw [if_neg (mt (validUtf8_iff _).1 hv)]⟩)

theorem probe_crlf {e : Err} (he : ¬ Retried c e) {rest : List Ev} {q : Bytes} {s : σ} (hs : trace s = probe q e rest) :
    (¬ HasCrLf q ∧ (crlfNext c s).1 = some (.error e) ∧ trace (crlfNext c s).2 = rest) ∨
    (∃ l q', ¬ HasCrLf l ∧ q = l ++ [13, 10] ++ q' ∧ trace (crlfNext c s).2 = probe q' e rest ∧
      ((RawLine l ∧ (crlfNext c s).1 = some (.ok l)) ∨
       (¬ RawLine l ∧ ((crlfNext c s).1 = none ∨ (crlfNext c s).1 = some (.error .utf8))))) := by
  unfold crlfNext
  rcases probe_next he hs with ⟨h1, h2, h3⟩ | ⟨l, q', h1, h2, h3, h4⟩
  · rcases hi : innerNext c s with ⟨r, s'⟩
    rw [hi] at h2 h3
    dsimp only at h2 h3
    subst h2
    exact .inl ⟨h1, rfl, h3⟩
  · rcases hi : innerNext c s with ⟨r, s'⟩
    rw [hi] at h3 h4
    dsimp only at h3 h4
    right
    rcases lineOutcome_cases l h1 with ⟨g1, g2⟩ | ⟨g1, _, g2⟩ | ⟨g1, _, g2⟩ <;> rw [g2] at h3 <;> subst h3
    · exact ⟨l, q', h1, h2, h4, .inl ⟨g1, rfl⟩⟩
    · exact ⟨l, q', h1, h2, h4, .inr ⟨g1, .inl rfl⟩⟩
    · exact ⟨l, q', h1, h2, h4, .inr ⟨g1, .inr rfl⟩⟩

theorem probe_gather {e : Err} (he : ¬ Retried c e) {rest : List Ev} {q : Bytes} (line : Bytes) {s : σ} (hs : trace s = probe q e rest) :
    ∃ conts : List Bytes, (∀ l ∈ conts, RawLine l ∧ StartsBlank l) ∧
      (HttpHeaders.gather c line s).1 = line ++ conts.flatten ∧
      ((∃ part, ¬ HasCrLf part ∧ q = conts.flatMap (· ++ [13, 10]) ++ part ∧
          (HttpHeaders.gather c line s).2.1 = some (.error e) ∧ trace (HttpHeaders.gather c line s).2.2 = rest) ∨
       (∃ n q', RawLine n ∧ ¬ StartsBlank n ∧ q = conts.flatMap (· ++ [13, 10]) ++ (n ++ [13, 10] ++ q') ∧
          (HttpHeaders.gather c line s).2.1 = some (.ok n) ∧ trace (HttpHeaders.gather c line s).2.2 = probe q' e rest) ∨
       (∃ l q', ¬ RawLine l ∧ ¬ HasCrLf l ∧ q = conts.flatMap (· ++ [13, 10]) ++ (l ++ [13, 10] ++ q') ∧
          ((HttpHeaders.gather c line s).2.1 = none ∨ (HttpHeaders.gather c line s).2.1 = some (.error .utf8)) ∧
          trace (HttpHeaders.gather c line s).2.2 = probe q' e rest)) := by
  fun_induction HttpHeaders.gather c line s generalizing q with
  | case1 line s next s' h hb ih =>
    rcases probe_crlf he hs with ⟨_, h2, _⟩ | ⟨l, q', h1, h2, h3, ⟨h4, h5⟩ | ⟨_, h5⟩⟩
    · rw [h] at h2; simp at h2
    · rw [h] at h3 h5
      simp only [Option.some.injEq, Except.ok.injEq] at h5
      subst h5
      obtain ⟨conts, g1, g2, g3⟩ := ih h3
      refine ⟨next :: conts, ?_, by simpa using g2, ?_⟩
      · intro l hl
        simp only [List.mem_cons] at hl
        rcases hl with rfl | hl
        · exact ⟨h4, (startsBlank_iff _).1 hb⟩
        · exact g1 l hl
      · subst h2
        rcases g3 with ⟨part, k1, rfl, k3⟩ | ⟨n, q2, k1, k2, rfl, k3⟩ | ⟨l, q2, k1, k2, rfl, k3⟩
        · exact .inl ⟨part, k1, by simp, k3⟩
        · exact .inr (.inl ⟨n, q2, k1, k2, by simp, k3⟩)
        · exact .inr (.inr ⟨l, q2, k1, k2, by simp, k3⟩)
    · rw [h] at h5; simp at h5
  | case2 line s next s' h hb =>
    rcases probe_crlf he hs with ⟨_, h2, _⟩ | ⟨l, q', h1, h2, h3, ⟨h4, h5⟩ | ⟨_, h5⟩⟩
    · rw [h] at h2; simp at h2
    · rw [h] at h3 h5
      simp only [Option.some.injEq, Except.ok.injEq] at h5
      subst h5
      exact ⟨[], by simp, by simp, .inr (.inl ⟨next, q', h4, mt (startsBlank_iff _).2 hb, by simpa using h2, rfl, h3⟩)⟩
    · rw [h] at h5; simp at h5
  | case3 line s item s' hno h =>
    rcases probe_crlf he hs with ⟨h1, h2, h3⟩ | ⟨l, q', h1, h2, h3, ⟨h4, h5⟩ | ⟨h4, h5⟩⟩
    · rw [h] at h2 h3
      exact ⟨[], by simp, by simp, .inl ⟨q, h1, by simp, h2, h3⟩⟩
    · rw [h] at h5; exact absurd h5 (hno l)
    · rw [h] at h3 h5
      exact ⟨[], by simp, by simp, .inr (.inr ⟨l, q', h4, h1, by simpa using h2, h5, h3⟩)⟩

section
variable [CaseMap]

/-- What `HeadOpen` says of the lines after the first header line. -/
def LoopOpen (l q : Bytes) : Prop :=
  ∃ raw logical part, (∀ l ∈ raw, RawLine l) ∧ Folded (l :: raw) logical ∧
    (∀ l ∈ logical.dropLast, ∃ k v, HeaderLine l k v) ∧ ¬ HasCrLf part ∧ q = raw.flatMap (· ++ [13, 10]) ++ part

omit [CaseMap] in
theorem folded_cons_inv {first : Bytes} {raw logical : List Bytes} (h : Folded (first :: raw) logical) :
    ∃ conts rest logical', (∀ l ∈ conts, StartsBlank l) ∧ (∀ l, rest.head? = some l → ¬ StartsBlank l) ∧
      Folded rest logical' ∧ raw = conts ++ rest ∧ logical = (first ++ conts.flatten) :: logical' := by
  generalize hx : first :: raw = x at h
  cases h with
  | nil => simp at hx
  | @line f conts rest logical' h1 h2 h3 =>
    simp only [List.cons.injEq] at hx
    obtain ⟨rfl, rfl⟩ := hx
    exact ⟨conts, rest, logical', h1, h2, h3, rfl, rfl⟩

omit [CaseMap] in
theorem folded_ne {first : Bytes} {raw logical : List Bytes} (h : Folded (first :: raw) logical) : logical ≠ [] := by
  obtain ⟨_, _, _, _, _, _, _, rfl⟩ := folded_cons_inv h
  simp

omit [CaseMap] in
/-- One more logical line. -/
theorem loopOpen_step {line n q' : Bytes} {conts : List Bytes} (hc : ∀ l ∈ conts, RawLine l ∧ StartsBlank l)
    (hn : RawLine n) (hb : ¬ StartsBlank n) :
    LoopOpen line (conts.flatMap (· ++ [13, 10]) ++ (n ++ [13, 10] ++ q')) ↔
      (∃ k v, HeaderLine (line ++ conts.flatten) k v) ∧ LoopOpen n q' := by
  constructor
  · rintro ⟨raw, logical, part, h1, h2, h3, h4, h5⟩
    obtain ⟨raw', rfl, rfl⟩ := lines_first hn.2.1 h4 (fun l hl => (hc l hl).1.2.1) (fun l hl => (h1 l hl).2.1) h5
    obtain ⟨conts', rest, logical', g1, g2, g3, g4, rfl⟩ := folded_cons_inv h2
    obtain ⟨rfl, rfl⟩ := blanks_first (fun l hl => (hc l hl).2) g1
      (by intro l hl; simp only [List.head?_cons, Option.some.injEq] at hl; subst hl; exact hb) g2 g4
    rw [List.dropLast_cons_of_ne_nil (folded_ne g3)] at h3
    exact ⟨h3 _ (by simp), raw', logical', part, fun l hl => h1 l (by simp [hl]), g3,
      fun l hl => h3 l (by simp [hl]), h4, rfl⟩
  · rintro ⟨hg, raw, logical, part, h1, h2, h3, h4, rfl⟩
    refine ⟨conts ++ n :: raw, (line ++ conts.flatten) :: logical, part, ?_, ?_, ?_, h4, by simp⟩
    · intro l hl
      simp only [List.mem_append, List.mem_cons] at hl
      rcases hl with hl | rfl | hl
      · exact (hc l hl).1
      · exact hn
      · exact h1 l hl
    · exact .line (fun l hl => (hc l hl).2)
        (by intro l hl; simp only [List.head?_cons, Option.some.injEq] at hl; subst hl; exact hb) h2
    · rw [List.dropLast_cons_of_ne_nil (folded_ne h2)]
      intro l hl
      simp only [List.mem_cons] at hl
      rcases hl with rfl | hl
      · exact hg
      · exact h3 l hl

theorem probe_loop {e : Err} (he : ¬ Retried c e) {rest : List Ev} :
    ∀ (N : Nat) {q : Bytes} {line : Bytes} (acc : List HttpHeader) {s : σ}, q.length ≤ N → trace s = probe q e rest → RawLine line →
    (trace (HttpHeaders.deserializeLoop c (some (.ok line)) acc s).2 = rest ↔ LoopOpen line q) := by
  intro N
  induction N with
  | zero =>
    intro q line acc s hN hs hl
    have hq : q = [] := List.length_eq_zero_iff.1 (by omega)
    subst hq
    obtain ⟨conts, h1, h2, h3⟩ := probe_gather he line hs
    rcases h3 with ⟨part, k1, k2, k3, k4⟩ | ⟨n, q2, k1, k2, k3, k4⟩ | ⟨l, q2, k1, k2, k3, k4⟩
    · have : LoopOpen line [] := ⟨[], [line], [], by simp, by simpa using Folded.line (first := line) (conts := []) (rest := []) (by simp) (by simp) .nil, by simp, by simp [HasCrLf], rfl⟩
      simp only [this, iff_true]
      unfold HttpHeaders.deserializeLoop
      rcases hg : HttpHeaders.gather c line s with ⟨l', item, s'⟩
      rw [hg] at k3 k4
      dsimp only at k3 k4 ⊢
      subst k3
      rcases HttpHeader.deserialize l' with hd | e' | _
      · dsimp only; unfold HttpHeaders.deserializeLoop; exact k4
      · exact k4
      · exact k4
    · simp at k3
    · simp at k3
  | succ N ih =>
    intro q line acc s hN hs hl
    obtain ⟨conts, h1, h2, h3⟩ := probe_gather he line hs
    have hvt := (validUtf8_iff _).2 (isText_flatten hl.2.2 fun x (hx : x ∈ conts) => (h1 x hx).1.2.2)
    unfold HttpHeaders.deserializeLoop
    rcases hg : HttpHeaders.gather c line s with ⟨l', item, s'⟩
    rw [hg] at h2 h3
    dsimp only at h2 h3 ⊢
    subst h2
    rcases h3 with ⟨part, k1, k2, rfl, k4⟩ | ⟨n, q2, k1, k2, k3, rfl, k4⟩ | ⟨l, q2, k1, k2, k3, k4, k5⟩
    · have : LoopOpen line q := ⟨conts, [line ++ conts.flatten], part, fun l hl => (h1 l hl).1,
        by simpa using Folded.line (first := line) (conts := conts) (rest := []) (fun l hl => (h1 l hl).2) (by simp) .nil,
        by simp, k1, k2⟩
      simp only [this, iff_true]
      rcases HttpHeader.deserialize (line ++ conts.flatten) with hd | e' | _
      · dsimp only; unfold HttpHeaders.deserializeLoop; exact k4
      · exact k4
      · exact k4
    · subst k3
      rw [loopOpen_step h1 k1 k2]
      rcases hd : HttpHeader.deserialize (line ++ conts.flatten) with hd' | e' | _
      · dsimp only
        obtain ⟨k, v, hkv, _⟩ := (HttpHeader.deserialize_iff hvt hd').1 hd
        rw [ih (acc ++ [hd']) (by simp at hN; omega) k4 k1]
        exact ⟨fun h => ⟨⟨k, v, hkv⟩, h⟩, fun h => h.2⟩
      · dsimp only
        refine iff_of_false (by rw [k4]; exact probe_ne) ?_
        rintro ⟨⟨k, v, hkv⟩, _⟩
        rw [(HttpHeader.deserialize_iff hvt ⟨CaseMap.lower k, v⟩).2 ⟨k, v, hkv, rfl⟩] at hd
        simp at hd
      · dsimp only
        refine iff_of_false (by rw [k4]; exact probe_ne) ?_
        rintro ⟨⟨k, v, hkv⟩, _⟩
        rw [(HttpHeader.deserialize_iff hvt ⟨CaseMap.lower k, v⟩).2 ⟨k, v, hkv, rfl⟩] at hd
        simp at hd
    · refine iff_of_false ?_ ?_
      · rcases HttpHeader.deserialize (line ++ conts.flatten) with hd | e' | _
        · dsimp only
          unfold HttpHeaders.deserializeLoop
          rcases k4 with rfl | rfl <;> dsimp only <;> rw [k5] <;> exact probe_ne
        · dsimp only; rw [k5]; exact probe_ne
        · dsimp only; rw [k5]; exact probe_ne
      · rintro ⟨raw, logical, part, g1, g2, g3, g4, g5⟩
        rw [k3] at g5
        obtain ⟨raw', rfl, _⟩ := lines_first k2 g4 (fun l hl => (h1 l hl).1.2.1) (fun l hl => (g1 l hl).2.1) g5
        exact k1 (g1 l (by simp))

theorem probe_headers {e : Err} (he : ¬ Retried c e) {rest : List Ev} {q : Bytes} {s : σ} (hs : trace s = probe q e rest) :
    trace (HttpHeaders.deserialize c s).2 = rest ↔ ∃ raw logical part, (∀ l ∈ raw, RawLine l) ∧ Folded raw logical ∧
      (∀ l ∈ logical.dropLast, ∃ k v, HeaderLine l k v) ∧ ¬ HasCrLf part ∧ q = raw.flatMap (· ++ [13, 10]) ++ part := by
  have hx : (HttpHeaders.deserialize c s).2 = (HttpHeaders.deserializeLoop c (crlfNext c s).1 [] (crlfNext c s).2).2 := by
    unfold HttpHeaders.deserialize
    rcases h1 : crlfNext c s with ⟨item, s1⟩
    dsimp only
    rcases h2 : HttpHeaders.deserializeLoop c item [] s1 with ⟨r | e' | _, s2⟩ <;> rfl
  rw [hx]
  rcases probe_crlf he hs with ⟨h1, h2, h3⟩ | ⟨l, q', h1, h2, h3, ⟨h4, h5⟩ | ⟨h4, h5⟩⟩
  · rw [h2]
    refine iff_of_true (by unfold HttpHeaders.deserializeLoop; exact h3) ⟨[], [], q, by simp, .nil, by simp, h1, by simp⟩
  · rw [h5, probe_loop he q'.length [] (Nat.le_refl _) h3 h4]
    subst h2
    constructor
    · rintro ⟨raw, logical, part, g1, g2, g3, g4, rfl⟩
      refine ⟨l :: raw, logical, part, ?_, g2, g3, g4, by simp⟩
      intro x hx
      simp only [List.mem_cons] at hx
      rcases hx with rfl | hx
      · exact h4
      · exact g1 x hx
    · rintro ⟨raw, logical, part, g1, g2, g3, g4, g5⟩
      obtain ⟨raw', rfl, rfl⟩ := lines_first (raw' := []) h1 g4 (by simp) (fun l hl => (g1 l hl).2.1) (by simpa using g5)
      exact ⟨raw', logical, part, fun x hx => g1 x (by simp [hx]), g2, g3, g4, rfl⟩
  · refine iff_of_false ?_ ?_
    · unfold HttpHeaders.deserializeLoop
      rcases h5 with h5 | h5 <;> rw [h5] <;> dsimp only <;> rw [h3] <;> exact probe_ne
    · rintro ⟨raw, logical, part, g1, g2, g3, g4, g5⟩
      subst h2
      obtain ⟨raw', rfl, _⟩ := lines_first (raw' := []) h1 g4 (by simp) (fun l hl => (g1 l hl).2.1) (by simpa using g5)
      exact h4 (g1 l (by simp))

theorem probe_head {α : Type} {start : Bytes → Res α} {ok : Bytes → Prop}
    (hok : ∀ l, RawLine l → (ok l ↔ ∃ a, start l = .ok a)) {e : Err} (he : ¬ Retried c e) {rest : List Ev} {q : Bytes}
    {s : σ} (hs : trace s = probe q e rest) : trace (parseHead c start s).2 = rest ↔ HeadOpen ok q := by
  unfold parseHead expectNext
  rcases probe_next he hs with ⟨h1, h2, h3⟩ | ⟨l, q', h1, h2, h3, h4⟩
  · rcases hi : innerNext c s with ⟨r, s'⟩
    rw [hi] at h2 h3
    dsimp only at h2 h3
    subst h2
    exact iff_of_true h3 (.inl h1)
  · rcases hi : innerNext c s with ⟨r, s'⟩
    rw [hi] at h3 h4
    dsimp only at h3 h4
    subst h2
    have hcr : HasCrLf (l ++ [13, 10] ++ q') := ⟨l, q', rfl⟩
    have hopen : HeadOpen ok (l ++ [13, 10] ++ q') ↔ RawLine l ∧ ok l ∧ ∃ raw logical part, (∀ l ∈ raw, RawLine l) ∧ Folded raw logical ∧
      (∀ l ∈ logical.dropLast, ∃ k v, HeaderLine l k v) ∧ ¬ HasCrLf part ∧ q' = raw.flatMap (· ++ [13, 10]) ++ part := by
      constructor
      · rintro (h | ⟨line, raw, logical, part, g1, g2, g3, g4, g5, g6, g7⟩)
        · exact absurd hcr h
        · rw [List.flatMap_cons, List.append_assoc (line ++ [13, 10])] at g7
          obtain ⟨rfl, rfl⟩ := line_first h1 g1.2.1 g7
          exact ⟨g1, g2, raw, logical, part, g3, g4, g5, g6, rfl⟩
      · rintro ⟨g1, g2, raw, logical, part, g3, g4, g5, g6, rfl⟩
        exact .inr ⟨l, raw, logical, part, g1, g2, g3, g4, g5, g6, by simp⟩
    rw [hopen]
    rcases lineOutcome_cases l h1 with ⟨g1, g2⟩ | ⟨g1, _, g2⟩ | ⟨g1, _, g2⟩ <;> rw [g2] at h3 <;> subst h3 <;> dsimp only
    · rcases hst : start l with a | e' | _ <;> dsimp only
      · have := probe_headers he h4
        rw [← this, hok l g1]
        rcases h8 : HttpHeaders.deserialize c s' with ⟨r | e' | _, s2⟩ <;> dsimp only
        · rcases contentLengthOf r with n | e' | _ <;> dsimp only <;>
            exact ⟨fun h => ⟨g1, ⟨a, hst⟩, h⟩, fun h => h.2.2⟩
        · exact ⟨fun h => ⟨g1, ⟨a, hst⟩, h⟩, fun h => h.2.2⟩
        · exact ⟨fun h => ⟨g1, ⟨a, hst⟩, h⟩, fun h => h.2.2⟩
      · refine iff_of_false (by rw [h4]; exact probe_ne) ?_
        rintro ⟨_, h, _⟩
        obtain ⟨a, ha⟩ := (hok l g1).1 h
        rw [hst] at ha; simp at ha
      · refine iff_of_false (by rw [h4]; exact probe_ne) ?_
        rintro ⟨_, h, _⟩
        obtain ⟨a, ha⟩ := (hok l g1).1 h
        rw [hst] at ha; simp at ha
    · exact iff_of_false (by rw [h4]; exact probe_ne) fun h => g1 h.1
    · exact iff_of_false (by rw [h4]; exact probe_ne) fun h => g1 h.1

/-- When the parser of requests waits for more: exactly while the head is open. A start line is judged when its end is
there; a header line when the line after it is there; a line that is not text when its end is there; and the blank line
ends it all. (The bytes `p` have arrived; a failure `e` stands in the place of the next one, to see whether it is asked
for.) -/
theorem C166_request_partial (c : Cfg) (s : σ) (p : Bytes) (e : Err) (rest : List Ev) (he : ¬ Retried c e)
    (hs : trace s = p.map .byte ++ .fault e :: rest) :
    trace (HttpRequest.deserialize c s).2 = rest ↔ HeadOpen (fun l => ∃ m t a b, RequestLine l m t a b) p := by
  have := probe_head (c := c) (start := parseRequestLine) (ok := fun l => ∃ m t a b, RequestLine l m t a b) (fun l hl => by
    constructor
    · rintro ⟨m, p, a, b, hx⟩
      exact ⟨(m, p, ⟨a, b⟩), (requestLine_ok_iff ((validUtf8_iff _).2 hl.2.2) m p ⟨a, b⟩).2 hx⟩
    · rintro ⟨⟨m, t, v⟩, hx⟩
      exact ⟨m, t, v.major, v.minor, (requestLine_ok_iff ((validUtf8_iff _).2 hl.2.2) m t v).1 hx⟩) he hs
  rw [← this]
  unfold HttpRequest.deserialize
  rcases h1 : parseHead c parseRequestLine s with ⟨⟨⟨_, _, _⟩, _, _, _⟩ | e' | _, s1⟩ <;> rfl

/-- The same for responses. -/
theorem C166_response_partial (c : Cfg) (s : σ) (p : Bytes) (e : Err) (rest : List Ev) (he : ¬ Retried c e)
    (hs : trace s = p.map .byte ++ .fault e :: rest) :
    trace (HttpResponse.deserialize c s).2 = rest ↔ HeadOpen (fun l => ∃ a b code, StatusLine l a b code) p := by
  have := probe_head (c := c) (start := parseStatusLine) (ok := fun l => ∃ a b code, StatusLine l a b code) (fun l hl => by
    constructor
    · rintro ⟨a, b, code, hx⟩
      exact ⟨(⟨a, b⟩, HttpStatus.fromCode (UInt32.ofNat code)), (statusLine_ok_iff ((validUtf8_iff _).2 hl.2.2) ⟨a, b⟩ _).2 ⟨code, hx, rfl⟩⟩
    · rintro ⟨⟨v, st⟩, hx⟩
      obtain ⟨code, hc, _⟩ := (statusLine_ok_iff ((validUtf8_iff _).2 hl.2.2) v st).1 hx
      exact ⟨v.major, v.minor, code, hc⟩) he hs
  rw [← this]
  unfold HttpResponse.deserialize
  rcases h1 : parseHead c parseStatusLine s with ⟨⟨⟨_, _⟩, _, _, _⟩ | e' | _, s1⟩ <;> rfl

omit [LawfulReader σ] [CaseMap] in
theorem delivers_of_bytes {bs xs : Bytes} {t' : List Ev} (h : Delivers c (bs.map .byte) xs t') : ∃ more, bs = xs ++ more := by
  induction xs generalizing bs with
  | nil => exact ⟨bs, rfl⟩
  | cons x xs ih =>
    cases bs with
    | nil => cases h
    | cons b bs =>
      simp only [List.map_cons] at h
      cases h with
      | byte _ h =>
        obtain ⟨more, rfl⟩ := ih h
        exact ⟨more, rfl⟩

/-- The whole of the claim, that the parser waits only while there is hope, is false, already in the start line: nothing
that begins with `( ` is a request, and a parser that has read this still waits for the end of the line. The same with
responses and `X`. -/
theorem C166_start_false (c : Cfg) (s : σ) (e : Err) (rest : List Ev) (he : ¬ Retried c e) :
    (trace s = (b!"( ").map .byte ++ .fault e :: rest → trace (HttpRequest.deserialize c s).2 = rest) ∧
    (∀ (u : σ) (q : Bytes), trace u = (b!"( " ++ q).map .byte → ∀ r, (HttpRequest.deserialize c u).1 ≠ .ok r) ∧
    (trace s = (b!"X").map .byte ++ .fault e :: rest → trace (HttpResponse.deserialize c s).2 = rest) ∧
    ∀ (u : σ) (q : Bytes), trace u = (b!"X" ++ q).map .byte → ∀ r, (HttpResponse.deserialize c u).1 ≠ .ok r := by
  refine ⟨fun h => (C166_request_partial c s _ e rest he h).2 (.inl (by unfold HasCrLf; decide)), ?_,
    fun h => (C166_response_partial c s _ e rest he h).2 (.inl (by unfold HasCrLf; decide)), ?_⟩
  · intro u q hu r hr
    obtain ⟨line, hist, ⟨v, ⟨tok, g1, g2, rst, h1, h2, h3, h4, h5, h6, h7, h8⟩, _⟩, ⟨raw, k1, k2, k3, _⟩, _⟩ :=
      C69_request_sound c u _ r (Prod.ext hr rfl)
    rw [hu] at k3
    obtain ⟨more, hm⟩ := delivers_of_bytes k3
    subst h1
    cases tok with
    | nil => exact h2.1 rfl
    | cons a tok =>
      simp only [blockBytes, List.flatMap_cons, List.append_assoc, List.cons_append, List.nil_append, List.cons.injEq] at hm
      obtain ⟨rfl, hm⟩ := hm
      cases tok with
      | nil =>
        rw [CaseMap.upper_ascii [40] (by decide)] at h6
        have : ∀ m : HttpMethod, ([40] : Bytes).map asciiUpperByte ≠ utf8 (methodName m) := by intro m; cases m <;> decide +kernel
        exact this _ h6
      | cons b tok =>
        simp only [List.cons_append, List.cons.injEq] at hm
        exact (h2.2 b (by simp)).1 hm.1.symm
  · intro u q hu r hr
    obtain ⟨line, hist, ⟨v, g, rst, t, h1, h2, h3, h4, ⟨d1, d2, r1, h5, _⟩, _⟩, ⟨raw, k1, k2, k3, _⟩, _⟩ :=
      C69_response_sound c u _ r (Prod.ext hr rfl)
    rw [hu] at k3
    obtain ⟨more, hm⟩ := delivers_of_bytes k3
    rw [show utf8 "HTTP/" = b!"HTTP/" by decide +kernel] at h5
    subst h5 h1
    simp [blockBytes] at hm

/-- Nor in the header lines: `a:b` is no header line and no continuation makes it one, yet it is judged only when the
line after it is there. -/
theorem C166_header_false (c : Cfg) (s : σ) (e : Err) (rest : List Ev) (he : ¬ Retried c e) :
    (trace s = (b!"GET / HTTP/1.1\r\na:b\r\n").map .byte ++ .fault e :: rest → trace (HttpRequest.deserialize c s).2 = rest) ∧
    ∀ (u : σ) (q : Bytes), trace u = (b!"GET / HTTP/1.1\r\na:b\r\n" ++ q).map .byte → ∀ r, (HttpRequest.deserialize c u).1 ≠ .ok r := by
  have hline : RequestLine b!"GET / HTTP/1.1" .Get b!"/" 1 1 := root_line
  have hab : RawLine b!"a:b" := ⟨by decide, by unfold HasCrLf; decide, by rw [← validUtf8_iff]; decide⟩
  have hfirst : RawLine b!"GET / HTTP/1.1" := ⟨by decide, by unfold HasCrLf; decide, by rw [← validUtf8_iff]; decide +kernel⟩
  constructor
  · intro h
    refine (C166_request_partial c s _ e rest he h).2 (.inr ⟨b!"GET / HTTP/1.1", [b!"a:b"], [b!"a:b"], [], hfirst,
      ⟨_, _, _, _, hline⟩, by simpa using hab, ?_, by simp, by unfold HasCrLf; decide, by decide⟩)
    exact .line (first := b!"a:b") (conts := []) (rest := []) (by simp) (by simp) .nil
  · intro u q hu r hr
    obtain ⟨line, hist, _, ⟨raw, k1, k2, k3, k4, k5, _⟩, _⟩ := C69_request_sound c u _ r (Prod.ext hr rfl)
    rw [hu] at k3
    obtain ⟨more, hm⟩ := delivers_of_bytes k3
    simp only [blockBytes, List.flatMap_cons, List.append_assoc] at hm
    obtain ⟨rfl, hm⟩ := line_first (l1 := b!"GET / HTTP/1.1") (x := b!"a:b\r\n" ++ q) hfirst.2.1 k1.2.1 (by simpa using hm)
    cases raw with
    | nil =>
      simp at hm
    | cons l raw =>
      simp only [List.flatMap_cons, List.append_assoc] at hm
      obtain ⟨rfl, hm⟩ := line_first (l1 := b!"a:b") (x := q) hab.2.1 (k2 l (by simp)).2.1 (by simpa using hm)
      obtain ⟨conts, rst, logical', _, _, _, _, g⟩ := folded_cons_inv k4
      cases hist with
      | nil => simp at g
      | cons kv hist =>
        have hk := k5 kv (by simp)
        simp only [List.map_cons, List.cons.injEq] at g
        have g1 := g.1
        rcases kv with ⟨k, v⟩
        rcases k with _ | ⟨x, _ | ⟨y, k⟩⟩ <;> simp at g1 hk
        obtain ⟨rfl, h2, _⟩ := g1
        exact hk.2.1 h2.symm

end
end

/-- After a good start line, a bad header line and the beginning of the next line the parser waits; when the next line is
whole it has refused, and has not asked for more. A bad start line is refused at once, and so is a line that is not text.
The head that is complete does not wait. -/
example (c : Cfg) : let _ := asciiCase
    let left := fun (p : Bytes) => (HttpRequest.deserialize c (Wire.mk [.data p, .fault .parse])).2.evs
    (left b!"GET / HTTP/1.1\r\na:b\r\nc: d" = [] ∧ left b!"GET / HTTP/1.1\r\na:b\r\nc: d\r\n" = [.fault .parse] ∧
      left b!"GET / HTTP/1.1\r\na:b\r\n c\r\n" = [] ∧ left b!"GET\r\n" = [.fault .parse] ∧
      left (b!"GET / HTTP/1.1\r\n" ++ [255] ++ b!"\r\n") = [.fault .parse] ∧
      left b!"GET / HTTP/1.1\r\na: b\r\n\r\n" = [.fault .parse]) := by
  rcases c with ⟨_ | _⟩ <;> decide +kernel

/-- The same with a response; the code is judged with the start line. -/
example (c : Cfg) : let _ := asciiCase
    let left := fun (p : Bytes) => (HttpResponse.deserialize c (Wire.mk [.data p, .fault .parse])).2.evs
    (left b!"HTTP/1.1 2" = [] ∧ left b!"HTTP/1.1 x\r\n" = [.fault .parse] ∧ left b!"HTTP/1.1 200\r\n" = [] ∧
      left b!"HTTP/1.1 200\r\nContent-Length: x\r\nb: c\r\n" = [] ∧
      left b!"HTTP/1.1 200\r\nContent-Length: x\r\n\r\n" = [.fault .parse]) := by
  rcases c with ⟨_ | _⟩ <;> decide +kernel

end HttpIo
