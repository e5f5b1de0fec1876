import Verif.Spec.Combine
import Verif.Props.Order

/-! C176: header fields that are combined into one. -/

namespace HttpIo
open Spec

section
variable [CaseMap]

omit [CaseMap] in
/-- The last pair of a list that is put together from two. -/
theorem lastWith_append {p : Bytes → Prop} {xs ys : List (Bytes × Bytes)} {v : Bytes} :
    LastWith p (xs ++ ys) v ↔ LastWith p ys v ∨ ((∀ kv ∈ ys, ¬ p kv.1) ∧ LastWith p xs v) := by
  suffices hs : ∀ rev : List (Bytes × Bytes), LastWith p (xs ++ rev.reverse) v ↔
      LastWith p rev.reverse v ∨ ((∀ kv ∈ rev.reverse, ¬ p kv.1) ∧ LastWith p xs v) by
    have := hs ys.reverse
    rwa [List.reverse_reverse] at this
  intro rev
  induction rev with
  | nil =>
    have : ¬ LastWith p [] v := by rintro ⟨pre, k, post, h, _⟩; simp at h
    simp [this]
  | cons y rev ih =>
    obtain ⟨k, x⟩ := y
    rw [List.reverse_cons, ← List.append_assoc, lastWith_snoc, lastWith_snoc, ih]
    by_cases hk : p k
    · simp only [hk, true_and, not_true_eq_false, false_and, or_false]
      constructor
      · exact .inl
      · rintro (h | ⟨h, _⟩)
        · exact h
        · exact absurd hk (h (k, x) (by simp))
    · simp only [hk, false_and, not_false_eq_true, true_and, false_or]
      refine or_congr_right (and_congr_left fun _ => ⟨fun h kv hkv => ?_, fun h kv hkv => h kv (by simp at hkv ⊢; exact .inl hkv)⟩)
      rcases List.mem_append.1 hkv with hkv | hkv
      · exact h kv hkv
      · simp only [List.mem_cons, List.not_mem_nil, or_false] at hkv
        rw [hkv]; exact hk

omit [CaseMap] in
theorem lastWith_single {p : Bytes → Prop} {k x v : Bytes} : LastWith p [(k, x)] v ↔ p k ∧ v = x := by
  have := lastWith_snoc (p := p) (hist := []) (k := k) (v := v) (v' := x)
  rw [List.nil_append] at this
  rw [this]
  have : ¬ LastWith p [] v := by rintro ⟨pre, k, post, h, _⟩; simp at h
  simp [this]

omit [CaseMap] in
theorem lastWith_none {p : Bytes → Prop} {ys : List (Bytes × Bytes)} (h : ∀ kv ∈ ys, ¬ p kv.1) (v : Bytes) : ¬ LastWith p ys v := by
  rintro ⟨pre, k, post, rfl, hk, _⟩
  exact h (k, v) (by simp) hk

omit [CaseMap] in
theorem fields_raw {l : List RawField} (hl : ∀ f ∈ l, f.Good) : ∀ x ∈ l.flatMap (·.lines), RawLine x := by
  intro x hx
  obtain ⟨f, hm, hx⟩ := List.mem_flatMap.1 hx
  exact (hl f hm).raw x hx

omit [CaseMap] in
theorem fields_colon {l : List RawField} (hl : ∀ f ∈ l, f.Good) : ∀ kv ∈ fieldPairs l, (58 : UInt8) ∉ kv.1 := by
  intro kv hkv
  obtain ⟨f, hm, rfl⟩ := List.mem_map.1 hkv
  exact (hl f hm).name

section
variable {fs gs : List RawField} {first second : RawField} {later : Prop}

/-- What is found under another name. -/
theorem Spec.Combined.others (h : Combined fs gs first second later) {name : Bytes} (hn : CaseMap.lower first.name ≠ name) (v : Bytes) :
    LastWith (fun k => CaseMap.lower k = name) (fieldPairs fs) v ↔ LastWith (fun k => CaseMap.lower k = name) (fieldPairs gs) v := by
  obtain ⟨pre, mid, post, one, rfl, rfl, h1, _, h3, _, _⟩ := h.parts
  have cut : ∀ (f : RawField) (l : List RawField), fieldPairs (f :: l) = [(f.name, f.value)] ++ fieldPairs l := fun _ _ => rfl
  have app : ∀ a b : List RawField, fieldPairs (a ++ b) = fieldPairs a ++ fieldPairs b := by
    intro a b; unfold fieldPairs; rw [List.map_append]
  have miss : ∀ (k x : Bytes) (l : List (Bytes × Bytes)), CaseMap.lower k ≠ name →
      (LastWith (fun k => CaseMap.lower k = name) ([(k, x)] ++ l) v ↔ LastWith (fun k => CaseMap.lower k = name) l v) := by
    intro k x l hk
    rw [lastWith_append]
    have : ¬ LastWith (fun k => CaseMap.lower k = name) [(k, x)] v := lastWith_none (by simpa using hk) v
    simp [this]
  have any : ∀ (k x : Bytes) (l : List (Bytes × Bytes)), CaseMap.lower k ≠ name →
      ((∀ kv ∈ [(k, x)] ++ l, ¬ CaseMap.lower kv.1 = name) ↔ ∀ kv ∈ l, ¬ CaseMap.lower kv.1 = name) := by
    intro k x l hk
    simp [hk]
  rw [app, app, lastWith_append, lastWith_append, cut, cut, miss _ _ _ hn, any _ _ _ hn, h1, miss _ _ _ hn, any _ _ _ hn, app, app,
    lastWith_append, lastWith_append, cut, miss _ _ _ (h3 ▸ hn)]
  have hm : (∀ kv ∈ fieldPairs mid ++ ([(second.name, second.value)] ++ fieldPairs post), ¬ CaseMap.lower kv.1 = name) ↔
      ∀ kv ∈ fieldPairs mid ++ fieldPairs post, ¬ CaseMap.lower kv.1 = name := by
    constructor
    · intro hk kv hkv
      rcases List.mem_append.1 hkv with hkv | hkv
      · exact hk kv (by simp [hkv])
      · exact hk kv (by simp [hkv])
    · intro hk kv hkv
      simp only [List.mem_append, List.mem_cons, List.not_mem_nil, or_false] at hkv
      rcases hkv with hkv | hkv | hkv
      · exact hk kv (by simp [hkv])
      · rw [hkv]; exact h3 ▸ hn
      · exact hk kv (by simp [hkv])
  rw [hm, any _ _ _ (h3 ▸ hn)]

/-- What is found under the name, if no other field of the name follows. -/
theorem Spec.Combined.same (h : Combined fs gs first second later) (hl : ¬ later) :
    LastWith (fun k => CaseMap.lower k = CaseMap.lower first.name) (fieldPairs fs) second.value ∧
    LastWith (fun k => CaseMap.lower k = CaseMap.lower first.name) (fieldPairs gs) (first.value ++ [44, 32] ++ second.value) := by
  obtain ⟨pre, mid, post, one, rfl, rfl, h1, h2, h3, h4, h5⟩ := h.parts
  have hp : ∀ f ∈ post, CaseMap.lower f.name ≠ CaseMap.lower first.name := fun f hf he => hl (h5.2 ⟨f, hf, he⟩)
  have pairs : ∀ l : List RawField, (∀ f ∈ l, CaseMap.lower f.name ≠ CaseMap.lower first.name) →
      ∀ kv ∈ fieldPairs l, ¬ CaseMap.lower kv.1 = CaseMap.lower first.name := by
    intro l hl kv hkv
    obtain ⟨f, hf, rfl⟩ := List.mem_map.1 hkv
    exact hl f hf
  refine ⟨⟨fieldPairs (pre ++ first :: mid), second.name, fieldPairs post, by simp [fieldPairs], h3, pairs _ hp⟩,
    ⟨fieldPairs pre, one.name, fieldPairs (mid ++ post), by simp [fieldPairs, h2], by rw [h1], pairs _ ?_⟩⟩
  intro f hf
  rcases List.mem_append.1 hf with hf | hf
  · exact h4 f hf
  · exact hp f hf

/-- What is found under any name, if another field of the name follows. -/
theorem Spec.Combined.followed (h : Combined fs gs first second later) (hl : later) (name v : Bytes) :
    LastWith (fun k => CaseMap.lower k = name) (fieldPairs fs) v ↔ LastWith (fun k => CaseMap.lower k = name) (fieldPairs gs) v := by
  by_cases hn : CaseMap.lower first.name = name
  · obtain ⟨pre, mid, post, one, rfl, rfl, h1, h2, h3, h4, h5⟩ := h.parts
    obtain ⟨f, hf, he⟩ := h5.1 hl
    have key : ∀ xs : List RawField, LastWith (fun k => CaseMap.lower k = name) (fieldPairs (xs ++ post)) v ↔
        LastWith (fun k => CaseMap.lower k = name) (fieldPairs post) v := by
      intro xs
      have app : fieldPairs (xs ++ post) = fieldPairs xs ++ fieldPairs post := by unfold fieldPairs; rw [List.map_append]
      rw [app, lastWith_append]
      constructor
      · rintro (h | ⟨h, _⟩)
        · exact h
        · exact absurd (he.trans hn) (h (f.name, f.value) (List.mem_map.2 ⟨f, hf, rfl⟩))
      · exact .inl
    have e1 : pre ++ first :: (mid ++ second :: post) = (pre ++ first :: mid ++ [second]) ++ post := by simp
    have e2 : pre ++ one :: (mid ++ post) = (pre ++ one :: mid) ++ post := by simp
    rw [e1, e2, key, key]
  · exact h.others hn v

end

section
variable {σ τ : Type} [LawfulReader σ] [LawfulReader τ]

/-- Two messages' header fields, in the second of which two fields of the same name are combined. What is found under every
other name is the same in both. Under that name the second of the two values is found in the one and both in the other, unless
another field of the name follows. So the two sets are equal exactly if another follows. Missing for the full property: that
they are equal. -/
theorem C176_headers_partial (c : Cfg) (s : σ) (u : τ) (fs gs : List RawField) (t : List Ev) (first second : RawField) (later : Prop)
    (hf : ∀ f ∈ fs, f.Good) (hg : ∀ f ∈ gs, f.Good) (h : Combined fs gs first second later)
    (hd : Delivers c (trace s) (blockBytes (fs.flatMap (·.lines))) t)
    (hd' : Delivers c (trace u) (blockBytes (gs.flatMap (·.lines))) t) :
    ∃ hs hs' s' u', HttpHeaders.deserialize c s = (.ok hs, s') ∧ HttpHeaders.deserialize c u = (.ok hs', u') ∧ trace s' = t ∧
      trace u' = t ∧ (∀ name, CaseMap.lower name ≠ CaseMap.lower first.name → hs.get name = hs'.get name) ∧
      (¬ later → hs.get first.name = some second.value ∧ hs'.get first.name = some (first.value ++ [44, 32] ++ second.value)) ∧
      (hs = hs' ↔ later) := by
  obtain ⟨hs, h1, h2, h3⟩ := C15_last_wins c s _ _ t (folded_fields hf) (fields_raw hf) (fields_colon hf) hd
  obtain ⟨hs', k1, k2, k3⟩ := C15_last_wins c u _ _ t (folded_fields hg) (fields_raw hg) (fields_colon hg) hd'
  rcases e1 : HttpHeaders.deserialize c s with ⟨x, s'⟩
  rcases e2 : HttpHeaders.deserialize c u with ⟨y, u'⟩
  rw [e1] at h1 h2
  rw [e2] at k1 k2
  dsimp only at h1 h2 k1 k2
  subst h1 k1
  have hno : ¬ later → hs.get first.name = some second.value ∧
      hs'.get first.name = some (first.value ++ [44, 32] ++ second.value) :=
    fun hl => ⟨((h3 first.name).1 _).2 (h.same hl).1, ((k3 first.name).1 _).2 (h.same hl).2⟩
  refine ⟨hs, hs', s', u', rfl, rfl, h2, k2, ?_, hno, ?_, ?_⟩
  · intro name hn
    exact answers_same h3 k3 name fun v => h.others (Ne.symm hn) v
  · intro he
    by_cases hl : later
    · exact hl
    · obtain ⟨a, b⟩ := hno hl
      rw [he, b] at a
      have := congrArg List.length (Option.some.inj a)
      simp only [List.length_append, List.length_cons, List.length_nil] at this
      omega
  · intro hl
    exact (C134_headers _ _ (.received e1) (.received e2)).2 fun name => answers_same h3 k3 name fun v => h.followed hl _ v

/-- Reading the head comes to the same but for the header set, if the name is not one that delimits the body. -/
theorem parseHead_combined {α : Type} {c : Cfg} (start : Bytes → Res α) {s : σ} {u : τ} {line : Bytes} {fs gs : List RawField}
    {t : List Ev} {first second : RawField} {later : Prop} (hl : RawLine line) (hf : ∀ f ∈ fs, f.Good) (hg : ∀ f ∈ gs, f.Good)
    (h : Combined fs gs first second later) (hn : later ∨ (CaseMap.lower first.name ≠ b!"transfer-encoding" ∧
      CaseMap.lower first.name ≠ b!"content-length"))
    (hd : Delivers c (trace s) (blockBytes (line :: fs.flatMap (·.lines))) t)
    (hd' : Delivers c (trace u) (blockBytes (line :: gs.flatMap (·.lines))) t) :
    SameOutcome (fun x y => x.1 = y.1 ∧ x.2.2 = y.2.2 ∧
        ∀ name, CaseMap.lower name ≠ CaseMap.lower first.name → x.2.1.get name = y.2.1.get name)
      (parseHead c start s).1 (parseHead c start u).1 ∧
      ∀ x, (parseHead c start s).1 = .ok x → trace (parseHead c start s).2 = trace (parseHead c start u).2 := by
  have cut : ∀ ls : List Bytes, blockBytes (line :: ls) = (line ++ [13, 10]) ++ blockBytes ls := by
    intro ls; simp [blockBytes]
  rw [cut] at hd hd'
  obtain ⟨t1, d1, d2⟩ := hd.split
  obtain ⟨t2, d3, d4⟩ := hd'.split
  obtain ⟨s1, e1, rfl⟩ := expectNext_line hl d1
  obtain ⟨u1, e2, rfl⟩ := expectNext_line hl d3
  obtain ⟨hs, hs', s2, u2, k1, k2, k3, k4, k5, _, k7⟩ := C176_headers_partial c s1 u1 fs gs t first second later hf hg h d2 d4
  have same : hs.get b!"Transfer-Encoding" = hs'.get b!"Transfer-Encoding" ∧ hs.get b!"Content-Length" = hs'.get b!"Content-Length" := by
    rcases hn with hn | hn
    · rw [k7.2 hn]; exact ⟨rfl, rfl⟩
    · have l1 : CaseMap.lower b!"Transfer-Encoding" = b!"transfer-encoding" := by rw [CaseMap.lower_ascii _ (by decide)]; decide
      have l2 : CaseMap.lower b!"Content-Length" = b!"content-length" := by rw [CaseMap.lower_ascii _ (by decide)]; decide
      exact ⟨k5 _ (by rw [l1]; exact Ne.symm hn.1), k5 _ (by rw [l2]; exact Ne.symm hn.2)⟩
  have hc : contentLengthOf hs = contentLengthOf hs' := by unfold contentLengthOf; rw [same.2]
  unfold parseHead
  rw [e1, e2]
  dsimp only
  cases start line with
  | err e => exact ⟨.err e, by simp⟩
  | panic => exact ⟨.panic, by simp⟩
  | ok a =>
    dsimp only
    rw [k1, k2]
    dsimp only
    rw [hc]
    cases contentLengthOf hs' with
    | err e => exact ⟨.err e, by simp⟩
    | panic => exact ⟨.panic, by simp⟩
    | ok n => exact ⟨.ok ⟨rfl, by rw [same.1], k5⟩, fun _ _ => k3.trans k4.symm⟩

omit [CaseMap] in
/-- A text with a comma in it is not a number. -/
theorem parseU64_comma (a b : Bytes) (n : Nat) : parseU64 (a ++ [44, 32] ++ b) ≠ .ok n := by
  unfold parseU64 Res.ofOption
  cases h : fromStrRadix 10 u64Max (a ++ [44, 32] ++ b) with
  | none => simp
  | some k =>
    have hd : ∀ {ds : Bytes} {m : Nat}, Numeral 10 ds m → (44 : UInt8) ∉ ds := by
      intro ds m hn hm
      obtain ⟨d, hd⟩ := hn.digits 44 hm
      have := hd.range
      simp at this
    have hmem : (44 : UInt8) ∈ a ++ [44, 32] ++ b := by simp
    rcases ((fromStrRadix_iff (by omega) (by omega)).1 h).1 with h1 | ⟨ds, h1, h2⟩
    · exact absurd hmem (hd h1)
    · rw [h1] at hmem
      rcases List.mem_cons.1 hmem with hm | hm
      · simp at hm
      · exact absurd hm (hd h2)

/-- A head with two lengths in one field is never accepted. -/
theorem parseHead_lengths {α : Type} {c : Cfg} (start : Bytes → Res α) {u : τ} {line : Bytes} {fs gs : List RawField}
    {t : List Ev} {first second : RawField} {later : Prop} (hl : RawLine line) (hg : ∀ f ∈ gs, f.Good)
    (h : Combined fs gs first second later) (hn : CaseMap.lower first.name = b!"content-length") (hno : ¬ later)
    (hd' : Delivers c (trace u) (blockBytes (line :: gs.flatMap (·.lines))) t) (x) : (parseHead c start u).1 ≠ .ok x := by
  have cut : ∀ ls : List Bytes, blockBytes (line :: ls) = (line ++ [13, 10]) ++ blockBytes ls := by
    intro ls; simp [blockBytes]
  rw [cut] at hd'
  obtain ⟨t2, d3, d4⟩ := hd'.split
  obtain ⟨u1, e2, rfl⟩ := expectNext_line hl d3
  obtain ⟨hs', k1, k2, k3⟩ := C15_last_wins c u1 _ _ t (folded_fields hg) (fields_raw hg) (fields_colon hg) d4
  rcases e3 : HttpHeaders.deserialize c u1 with ⟨y, u2⟩
  rw [e3] at k1
  dsimp only at k1
  subst k1
  have hv : hs'.get b!"Content-Length" = some (first.value ++ [44, 32] ++ second.value) := by
    refine ((k3 _).1 _).2 ?_
    rw [lower_contentLength, ← hn]
    exact (h.same hno).2
  unfold parseHead
  rw [e2]
  dsimp only
  cases start line with
  | err e => simp
  | panic => simp
  | ok a =>
    dsimp only
    rw [e3]
    dsimp only
    unfold contentLengthOf
    rw [hv]
    dsimp only
    cases hp : parseU64 (first.value ++ [44, 32] ++ second.value) with
    | err e => simp
    | panic => simp
    | ok n => exact absurd hp (parseU64_comma _ _ n)

/-- Two codings in one field are never `chunked`, in two fields they are if the second is. -/
theorem parseHead_codings {α : Type} {c : Cfg} (start : Bytes → Res α) {s : σ} {u : τ} {line : Bytes} {fs gs : List RawField}
    {t : List Ev} {first second : RawField} {later : Prop} (hl : RawLine line) (hf : ∀ f ∈ fs, f.Good) (hg : ∀ f ∈ gs, f.Good)
    (h : Combined fs gs first second later) (hn : CaseMap.lower first.name = b!"transfer-encoding") (hno : ¬ later)
    (hd : Delivers c (trace s) (blockBytes (line :: fs.flatMap (·.lines))) t)
    (hd' : Delivers c (trace u) (blockBytes (line :: gs.flatMap (·.lines))) t) :
    SameOutcome (fun x y => x.2.2.1 = some second.value ∧ y.2.2.1 = some (first.value ++ [44, 32] ++ second.value) ∧
      x.2.2.2 = y.2.2.2) (parseHead c start s).1 (parseHead c start u).1 := by
  have cut : ∀ ls : List Bytes, blockBytes (line :: ls) = (line ++ [13, 10]) ++ blockBytes ls := by
    intro ls; simp [blockBytes]
  rw [cut] at hd hd'
  obtain ⟨t1, d1, d2⟩ := hd.split
  obtain ⟨t2, d3, d4⟩ := hd'.split
  obtain ⟨s1, e1, rfl⟩ := expectNext_line hl d1
  obtain ⟨u1, e2, rfl⟩ := expectNext_line hl d3
  obtain ⟨hs, hs', s2, u2, k1, k2, k3, k4, k5, k6, _⟩ := C176_headers_partial c s1 u1 fs gs t first second later hf hg h d2 d4
  have l1 : CaseMap.lower b!"Transfer-Encoding" = CaseMap.lower first.name := by rw [lower_transferEncoding, hn]
  have hsame : ∀ g : HttpHeaders, g.get b!"Transfer-Encoding" = g.get first.name := by
    intro g; unfold HttpHeaders.get; rw [l1]
  have hcl : hs.get b!"Content-Length" = hs'.get b!"Content-Length" :=
    k5 _ (by rw [lower_contentLength, hn]; decide)
  have hc : contentLengthOf hs = contentLengthOf hs' := by unfold contentLengthOf; rw [hcl]
  unfold parseHead
  rw [e1, e2]
  dsimp only
  cases start line with
  | err e => exact .err e
  | panic => exact .panic
  | ok a =>
    dsimp only
    rw [k1, k2]
    dsimp only
    rw [hc]
    cases contentLengthOf hs' with
    | err e => exact .err e
    | panic => exact .panic
    | ok n => exact .ok ⟨by dsimp only; rw [hsame]; exact (k6 hno).1, by dsimp only; rw [hsame]; exact (k6 hno).2, rfl⟩

omit [CaseMap] [LawfulReader τ] in
theorem framing_chunked_iff {c : Cfg} (enc : Option Bytes) (n : Option Nat) (u : τ) :
    framing (HttpBody.new c enc n u) = .chunked ↔ enc = some b!"chunked" := by
  unfold HttpBody.new
  split
  · simp [framing, *]
  · cases n <;> simp [framing, *]

omit [CaseMap] in
theorem comma_not_chunked (a b : Bytes) : some (a ++ [44, 32] ++ b) ≠ some b!"chunked" := by
  intro h
  have h1 : (44 : UInt8) ∈ a ++ [44, 32] ++ b := by simp
  rw [Option.some.inj h] at h1
  exact absurd h1 (by decide)

variable [ZeroReader σ] [ZeroReader τ]

/-- A request comes to the same, but for what is found under the name, if the name is not one that delimits the body (or another
field of the name follows). -/
theorem C176_request_partial (c : Cfg) (s : σ) (u : τ) (line : Bytes) (fs gs : List RawField) (t : List Ev) (first second : RawField)
    (later : Prop) (hl : RawLine line) (hf : ∀ f ∈ fs, f.Good) (hg : ∀ f ∈ gs, f.Good) (h : Combined fs gs first second later)
    (hn : later ∨ (CaseMap.lower first.name ≠ utf8 "transfer-encoding" ∧ CaseMap.lower first.name ≠ utf8 "content-length"))
    (hd : Delivers c (trace s) (blockBytes (line :: fs.flatMap (·.lines))) t)
    (hd' : Delivers c (trace u) (blockBytes (line :: gs.flatMap (·.lines))) t) :
    SameOutcome (fun r r' => r.method = r'.method ∧ r.uri = r'.uri ∧ r.version = r'.version ∧ SameBody r.body r'.body ∧
      ∀ name, CaseMap.lower name ≠ CaseMap.lower first.name → r.headers.get name = r'.headers.get name)
      (HttpRequest.deserialize c s).1 (HttpRequest.deserialize c u).1 := by
  rw [show utf8 "transfer-encoding" = b!"transfer-encoding" by decide +kernel,
    show utf8 "content-length" = b!"content-length" by decide +kernel] at hn
  have hp := parseHead_combined parseRequestLine hl hf hg h hn hd hd'
  unfold HttpRequest.deserialize
  rcases h1 : parseHead c parseRequestLine s with ⟨r1, s1⟩
  rcases h2 : parseHead c parseRequestLine u with ⟨r2, u1⟩
  rw [h1, h2] at hp
  obtain ⟨hr, ht⟩ := hp
  dsimp only at ht hr
  cases hr with
  | ok hr =>
    rename_i a b
    rcases a with ⟨⟨m, uri, v⟩, hs, enc, n⟩
    rcases b with ⟨⟨m', uri', v'⟩, hs', enc', n'⟩
    obtain ⟨r1, r2, r3⟩ := hr
    cases r1
    cases r2
    exact .ok ⟨rfl, rfl, rfl, sameBody_new (ht _ rfl) enc n, r3⟩
  | err e => exact .err e
  | panic => exact .panic

/-- The same for responses. -/
theorem C176_response_partial (c : Cfg) (s : σ) (u : τ) (line : Bytes) (fs gs : List RawField) (t : List Ev) (first second : RawField)
    (later : Prop) (hl : RawLine line) (hf : ∀ f ∈ fs, f.Good) (hg : ∀ f ∈ gs, f.Good) (h : Combined fs gs first second later)
    (hn : later ∨ (CaseMap.lower first.name ≠ utf8 "transfer-encoding" ∧ CaseMap.lower first.name ≠ utf8 "content-length"))
    (hd : Delivers c (trace s) (blockBytes (line :: fs.flatMap (·.lines))) t)
    (hd' : Delivers c (trace u) (blockBytes (line :: gs.flatMap (·.lines))) t) :
    SameOutcome (fun r r' => r.version = r'.version ∧ r.status = r'.status ∧ SameBody r.body r'.body ∧
      ∀ name, CaseMap.lower name ≠ CaseMap.lower first.name → r.headers.get name = r'.headers.get name)
      (HttpResponse.deserialize c s).1 (HttpResponse.deserialize c u).1 := by
  rw [show utf8 "transfer-encoding" = b!"transfer-encoding" by decide +kernel,
    show utf8 "content-length" = b!"content-length" by decide +kernel] at hn
  have hp := parseHead_combined parseStatusLine hl hf hg h hn hd hd'
  unfold HttpResponse.deserialize
  rcases h1 : parseHead c parseStatusLine s with ⟨r1, s1⟩
  rcases h2 : parseHead c parseStatusLine u with ⟨r2, u1⟩
  rw [h1, h2] at hp
  obtain ⟨hr, ht⟩ := hp
  dsimp only at ht hr
  cases hr with
  | ok hr =>
    rename_i a b
    rcases a with ⟨⟨v, st⟩, hs, enc, n⟩
    rcases b with ⟨⟨v', st'⟩, hs', enc', n'⟩
    obtain ⟨r1, r2, r3⟩ := hr
    cases r1
    cases r2
    exact .ok ⟨rfl, rfl, sameBody_new (by rw [BufReader.trace_new, BufReader.trace_new]; exact ht _ rfl) enc n, r3⟩
  | err e => exact .err e
  | panic => exact .panic

/-- If the name is that of the length: with both in one field the message is never accepted, be it a request or a response. (In
two fields the second counts.) -/
theorem C176_length_partial (c : Cfg) (u : τ) (line : Bytes) (fs gs : List RawField) (t : List Ev) (first second : RawField)
    (later : Prop) (hl : RawLine line) (hg : ∀ f ∈ gs, f.Good) (h : Combined fs gs first second later) (hno : ¬ later)
    (hn : CaseMap.lower first.name = utf8 "content-length")
    (hd' : Delivers c (trace u) (blockBytes (line :: gs.flatMap (·.lines))) t) :
    (∀ r, (HttpRequest.deserialize c u).1 ≠ .ok r) ∧ ∀ r, (HttpResponse.deserialize c u).1 ≠ .ok r := by
  rw [show utf8 "content-length" = b!"content-length" by decide +kernel] at hn
  constructor
  · have hp := parseHead_lengths parseRequestLine hl hg h hn hno hd'
    unfold HttpRequest.deserialize
    rcases h2 : parseHead c parseRequestLine u with ⟨x | e | _, u1⟩
    · rw [h2] at hp; exact absurd rfl (hp x)
    · simp
    · simp
  · have hp := parseHead_lengths parseStatusLine hl hg h hn hno hd'
    unfold HttpResponse.deserialize
    rcases h2 : parseHead c parseStatusLine u with ⟨x | e | _, u1⟩
    · rw [h2] at hp; exact absurd rfl (hp x)
    · simp
    · simp

/-- If the name is that of the coding: the one message is accepted as the other is, and the bodies are delimited in the same way
exactly if the second coding is not `chunked`. -/
theorem C176_coding_partial (c : Cfg) (s : σ) (u : τ) (line : Bytes) (fs gs : List RawField) (t : List Ev) (first second : RawField)
    (later : Prop) (hl : RawLine line) (hf : ∀ f ∈ fs, f.Good) (hg : ∀ f ∈ gs, f.Good) (h : Combined fs gs first second later)
    (hno : ¬ later) (hn : CaseMap.lower first.name = utf8 "transfer-encoding")
    (hd : Delivers c (trace s) (blockBytes (line :: fs.flatMap (·.lines))) t)
    (hd' : Delivers c (trace u) (blockBytes (line :: gs.flatMap (·.lines))) t) :
    SameOutcome (fun r r' => framing r.body = framing r'.body ↔ second.value ≠ utf8 "chunked")
      (HttpRequest.deserialize c s).1 (HttpRequest.deserialize c u).1 ∧
    SameOutcome (fun r r' => framing r.body = framing r'.body ↔ second.value ≠ utf8 "chunked")
      (HttpResponse.deserialize c s).1 (HttpResponse.deserialize c u).1 := by
  rw [show utf8 "transfer-encoding" = b!"transfer-encoding" by decide +kernel] at hn
  rw [show utf8 "chunked" = b!"chunked" by decide +kernel]
  have key : ∀ {α β : Type} (n : Option Nat) (x : α) (y : β) (e e' : Option Bytes), e = some second.value →
      e' = some (first.value ++ [44, 32] ++ second.value) →
      (framing (HttpBody.new c e n x) = framing (HttpBody.new c e' n y) ↔ second.value ≠ b!"chunked") := by
    rintro α β n x y e e' rfl rfl
    have h2 : ¬ framing (HttpBody.new c (some (first.value ++ [44, 32] ++ second.value)) n y) = .chunked := by
      rw [framing_chunked_iff]; exact comma_not_chunked _ _
    constructor
    · intro hf hv
      rw [← hf, framing_chunked_iff, hv] at h2
      exact h2 rfl
    · intro hv
      unfold HttpBody.new
      rw [if_neg (comma_not_chunked _ _), if_neg (fun hh => hv (Option.some.inj hh))]
      cases n <;> rfl
  constructor
  · have hp := parseHead_codings parseRequestLine hl hf hg h hn hno hd hd'
    unfold HttpRequest.deserialize
    rcases h1 : parseHead c parseRequestLine s with ⟨r1, s1⟩
    rcases h2 : parseHead c parseRequestLine u with ⟨r2, u1⟩
    rw [h1, h2] at hp
    dsimp only at hp
    cases hp with
    | ok hr =>
      rename_i a b
      rcases a with ⟨⟨m, uri, v⟩, hs, enc, n⟩
      rcases b with ⟨⟨m', uri', v'⟩, hs', enc', n'⟩
      obtain ⟨r1, r2, r3⟩ := hr
      cases r3
      exact .ok (key n _ _ enc enc' r1 r2)
    | err e => exact .err e
    | panic => exact .panic
  · have hp := parseHead_codings parseStatusLine hl hf hg h hn hno hd hd'
    unfold HttpResponse.deserialize
    rcases h1 : parseHead c parseStatusLine s with ⟨r1, s1⟩
    rcases h2 : parseHead c parseStatusLine u with ⟨r2, u1⟩
    rw [h1, h2] at hp
    dsimp only at hp
    cases hp with
    | ok hr =>
      rename_i a b
      rcases a with ⟨⟨v, st⟩, hs, enc, n⟩
      rcases b with ⟨⟨v', st'⟩, hs', enc', n'⟩
      obtain ⟨r1, r2, r3⟩ := hr
      cases r3
      exact .ok (key n _ _ enc enc' r1 r2)
    | err e => exact .err e
    | panic => exact .panic

end

section
variable {c : Cfg} {σ ρ η ε : Type} [LawfulReader σ] [ZeroReader σ] [LawfulWriter σ] [LawfulReader ρ] [ZeroReader ρ]

/-- And the server answers such requests alike. -/
theorem C176_answer_partial {P : σ → Prop} (hra : ReadsApart σ) (hrel : Reliable c P) (hkept : ∀ s n, P s → P (read s n).2)
    (h : Handler c η σ ρ ε) (ho : OnlyReads h) (hb : ByContent h) (errText : Err → Bytes) (s u : σ) (self : η) (hs : P s) (hu : P u)
    (line : Bytes) (fs gs : List RawField) (t : List Ev) (first second : RawField)
    (later : Prop) (hl : RawLine line) (hf : ∀ f ∈ fs, f.Good) (hg : ∀ f ∈ gs, f.Good) (hc : Combined fs gs first second later)
    (hn : later ∨ (CaseMap.lower first.name ≠ utf8 "transfer-encoding" ∧ CaseMap.lower first.name ≠ utf8 "content-length"))
    (hd : Delivers c (trace s) (blockBytes (line :: fs.flatMap (·.lines))) t)
    (hd' : Delivers c (trace u) (blockBytes (line :: gs.flatMap (·.lines))) t) : SameAnswer h errText s u self := by
  have h9 := C176_request_partial c (BufReader.new c s) (BufReader.new c u) line fs gs t first second later hl hf hg hc hn
    (by rw [BufReader.trace_new]; exact hd) (by rw [BufReader.trace_new]; exact hd')
  have key : (h.serveOneInner errText s self).1 = (h.serveOneInner errText u self).1 ∧
      (h.serveOneInner errText s self).2.2 = (h.serveOneInner errText u self).2.2 := by
    rcases hx : HttpRequest.deserialize c (BufReader.new c s) with ⟨x, s1⟩
    rcases hy : HttpRequest.deserialize c (BufReader.new c u) with ⟨y, u1⟩
    rw [hx, hy] at h9
    dsimp only at h9
    cases h9 with
    | err e =>
      rw [serveOneInner_err h errText self hx, serveOneInner_err h errText self hy]; exact ⟨rfl, rfl⟩
    | panic => rw [serveOneInner_panic h errText self hx, serveOneInner_panic h errText self hy]; exact ⟨rfl, rfl⟩
    | ok hr => exact handled_same h hb errText self hx hy hr.1 hr.2.1 fun _ => ⟨hr.2.2.2.1.kind, hr.2.2.2.1.events⟩
  exact same_answer hra hrel hkept h ho errText s u self hs hu key.1 key.2

end

end

/-- `Via: a`, `Host: h` and `via: b`; and the two combined. -/
def viaFields : List RawField :=
  [⟨b!"Via", b!"a", [b!"Via: a"]⟩, ⟨b!"Host", b!"h", [b!"Host: h"]⟩, ⟨b!"via", b!"b", [b!"via: b"]⟩]

@[inherit_doc viaFields] def viaCombined : List RawField := [⟨b!"Via", b!"a, b", [b!"Via: a, b"]⟩, ⟨b!"Host", b!"h", [b!"Host: h"]⟩]

/-- Hypotheses of the theorems above: such fields, and such messages. -/
example : letI : CaseMap := asciiCase
    (∀ f ∈ viaFields ++ viaCombined, f.Good) ∧
    Combined viaFields viaCombined ⟨b!"Via", b!"a", [b!"Via: a"]⟩ ⟨b!"via", b!"b", [b!"via: b"]⟩ False ∧
    CaseMap.lower b!"Via" ≠ utf8 "transfer-encoding" ∧ CaseMap.lower b!"Via" ≠ utf8 "content-length" := by
  letI : CaseMap := asciiCase
  refine ⟨?_, ⟨[], [⟨b!"Host", b!"h", [b!"Host: h"]⟩], [], _, rfl, rfl, rfl, by decide, by decide, ?_, by simp⟩, by decide +kernel,
    by decide +kernel⟩
  · intro f hf
    simp only [viaFields, viaCombined, List.mem_append, List.mem_cons, List.not_mem_nil, or_false] at hf
    rcases hf with (rfl | rfl | rfl) | rfl | rfl <;>
    · refine ⟨?_, by decide, by decide, _, [], rfl, by rw [← startsBlank_iff]; decide, by simp⟩
      intro l hl
      simp only [List.mem_cons, List.not_mem_nil, or_false] at hl
      rw [hl]; exact ⟨by decide, by unfold HasCrLf; decide, isText_ascii (by decide)⟩
  · intro f hf
    simp only [List.mem_cons, List.not_mem_nil, or_false] at hf
    rw [hf]; decide

/-- `C176_length_partial` and `C176_coding_partial`: such fields, here the length and the coding. -/
example (first second : Bytes) : letI : CaseMap := asciiCase
    Combined [⟨b!"Content-Length", first, []⟩, ⟨b!"content-length", second, []⟩]
      [⟨b!"Content-Length", first ++ [44, 32] ++ second, []⟩] ⟨b!"Content-Length", first, []⟩ ⟨b!"content-length", second, []⟩ False ∧
    CaseMap.lower b!"Content-Length" = utf8 "content-length" ∧
    Combined [⟨b!"Transfer-Encoding", first, []⟩, ⟨b!"Transfer-Encoding", second, []⟩]
      [⟨b!"Transfer-Encoding", first ++ [44, 32] ++ second, []⟩] ⟨b!"Transfer-Encoding", first, []⟩ ⟨b!"Transfer-Encoding", second, []⟩
      False ∧
    CaseMap.lower b!"Transfer-Encoding" = utf8 "transfer-encoding" := by
  letI : CaseMap := asciiCase
  exact ⟨⟨[], [], [], _, rfl, rfl, rfl, rfl, by dsimp only; decide, by simp, by simp⟩, by decide +kernel,
    ⟨[], [], [], _, rfl, rfl, rfl, rfl, by dsimp only, by simp, by simp⟩, by decide +kernel⟩

/-- Two fields of a name are to mean the same as one with both values (RFC 7230, section 3.2.2). In general they do not: only
the second value is found; a second length is believed where both together are refused; and a coding named before `chunked` is
forgotten, where both together are taken for no coding at all. -/
theorem C176_false (c : Cfg) : letI : CaseMap := asciiCase
    (match HttpRequest.deserialize c (Wire.mk [.data b!"GET / HTTP/1.1\r\nVia: a\r\nVia: b\r\n\r\n"]),
      HttpRequest.deserialize c (Wire.mk [.data b!"GET / HTTP/1.1\r\nVia: a, b\r\n\r\n"]) with
    | (.ok r, _), (.ok r', _) => decide (r.headers.get b!"via" = some b!"b" ∧ r'.headers.get b!"via" = some b!"a, b")
    | _, _ => false) = true ∧
    (match HttpRequest.deserialize c (Wire.mk [.data b!"PUT / HTTP/1.1\r\nContent-Length: 5\r\nContent-Length: 6\r\n\r\n"]),
      HttpRequest.deserialize c (Wire.mk [.data b!"PUT / HTTP/1.1\r\nContent-Length: 5, 6\r\n\r\n"]) with
    | (.ok r, _), (.err e, _) => decide (framing r.body = .limited 6 ∧ e = .parseInt)
    | _, _ => false) = true ∧
    (match HttpRequest.deserialize c (Wire.mk [.data b!"PUT / HTTP/1.1\r\nTransfer-Encoding: gzip\r\nTransfer-Encoding: chunked\r\n\r\n"]),
      HttpRequest.deserialize c (Wire.mk [.data b!"PUT / HTTP/1.1\r\nTransfer-Encoding: gzip, chunked\r\n\r\n"]) with
    | (.ok r, _), (.ok r', _) => decide (framing r.body = .chunked ∧ framing r'.body = .tilClose)
    | _, _ => false) = true := by
  rcases c with ⟨_ | _⟩ <;> decide +kernel

end HttpIo
