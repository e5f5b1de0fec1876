import Verif.Spec.Order
import Verif.Props.Reason

/-! C175: the order of header fields. -/

namespace HttpIo
open Spec

/-- The pairs that the fields stand for. -/
def fieldPairs (fs : List RawField) : List (Bytes × Bytes) := fs.map fun f => (f.name, f.value)

theorem folded_fields {fs : List RawField} (h : ∀ f ∈ fs, f.Good) :
    Folded (fs.flatMap (·.lines)) ((fieldPairs fs).map fun kv => kv.1 ++ [58, 32] ++ kv.2) := by
  induction fs with
  | nil => exact .nil
  | cons f fs ih =>
    have hf := h f List.mem_cons_self
    obtain ⟨first, conts, h1, h2, h3⟩ := hf.folded
    have ht := hf.text
    rw [List.flatMap_cons, h1]
    rw [h1, List.flatten_cons] at ht
    show Folded (first :: (conts ++ _)) ((f.name ++ [58, 32] ++ f.value) :: _)
    rw [← ht]
    refine .line h3 ?_ (ih fun g hg => h g (List.mem_cons_of_mem _ hg))
    intro l hl
    cases fs with
    | nil => simp at hl
    | cons g gs =>
      obtain ⟨first', conts', k1, k2, _⟩ := (h g (by simp)).folded
      rw [List.flatMap_cons, k1] at hl
      simp only [List.cons_append, List.head?_cons, Option.some.injEq] at hl
      rw [← hl]; exact k2

section
variable [CaseMap]

theorem Spec.Reordered.mem {fs gs : List RawField} (h : Reordered fs gs) : ∀ f, f ∈ gs ↔ f ∈ fs := by
  induction h with
  | refl => intro f; rfl
  | swap _ _ ih =>
    intro f
    rw [← ih f]
    simp only [List.mem_append, List.mem_cons]
    constructor <;> (rintro (h | h | h | h) <;> simp [h])

omit [CaseMap] in
theorem lastWith_swap {p : Bytes → Prop} {pre post : List (Bytes × Bytes)} {a b : Bytes × Bytes} (h : ¬ (p a.1 ∧ p b.1)) {v : Bytes} :
    LastWith p (pre ++ a :: b :: post) v ↔ LastWith p (pre ++ b :: a :: post) v := by
  suffices hs : ∀ rev : List (Bytes × Bytes),
      LastWith p (pre ++ a :: b :: rev.reverse) v ↔ LastWith p (pre ++ b :: a :: rev.reverse) v by
    have := hs post.reverse
    rwa [List.reverse_reverse] at this
  intro rev
  induction rev with
  | nil =>
    obtain ⟨k, x⟩ := a
    obtain ⟨k', x'⟩ := b
    have e1 : pre ++ (k, x) :: (k', x') :: List.reverse [] = (pre ++ [(k, x)]) ++ [(k', x')] := by simp
    have e2 : pre ++ (k', x') :: (k, x) :: List.reverse [] = (pre ++ [(k', x')]) ++ [(k, x)] := by simp
    rw [e1, e2, lastWith_snoc, lastWith_snoc, lastWith_snoc, lastWith_snoc]
    dsimp only at h
    by_cases h1 : p k
    · have h2 : ¬ p k' := fun h2 => h ⟨h1, h2⟩
      simp [h1, h2]
    · by_cases h2 : p k' <;> simp [h1, h2]
  | cons y rev ih =>
    obtain ⟨k, x⟩ := y
    have e : ∀ a b : Bytes × Bytes, pre ++ a :: b :: ((k, x) :: rev).reverse = (pre ++ a :: b :: rev.reverse) ++ [(k, x)] := by
      intro a b; simp
    rw [e, e, lastWith_snoc, lastWith_snoc, ih]

theorem Spec.Reordered.last {fs gs : List RawField} (h : Reordered fs gs) (name : Bytes) (v : Bytes) :
    LastWith (fun k => CaseMap.lower k = name) (fieldPairs gs) v ↔ LastWith (fun k => CaseMap.lower k = name) (fieldPairs fs) v := by
  induction h with
  | refl => rfl
  | swap hne _ ih =>
    rw [← ih]
    unfold fieldPairs
    rw [List.map_append, List.map_append, List.map_cons, List.map_cons, List.map_cons, List.map_cons]
    refine lastWith_swap ?_
    rintro ⟨h1, h2⟩
    exact hne (h2.trans h1.symm)

section
variable {σ τ : Type} [LawfulReader σ] [LawfulReader τ]

/-- The header sets are equal. -/
theorem headers_reordered {c : Cfg} {s : σ} {u : τ} {fs gs : List RawField} {t : List Ev} (hf : ∀ f ∈ fs, f.Good)
    (h : Reordered fs gs) (hd : Delivers c (trace s) (blockBytes (fs.flatMap (·.lines))) t)
    (hd' : Delivers c (trace u) (blockBytes (gs.flatMap (·.lines))) t) :
    ∃ hs s' u', HttpHeaders.deserialize c s = (.ok hs, s') ∧ HttpHeaders.deserialize c u = (.ok hs, u') ∧ trace s' = t ∧
      trace u' = t := by
  have hg : ∀ f ∈ gs, f.Good := fun f hm => hf f ((h.mem f).1 hm)
  have raw : ∀ l : List RawField, (∀ f ∈ l, f.Good) → ∀ x ∈ l.flatMap (·.lines), RawLine x := by
    intro l hl x hx
    obtain ⟨f, hm, hx⟩ := List.mem_flatMap.1 hx
    exact (hl f hm).raw x hx
  have col : ∀ l : List RawField, (∀ f ∈ l, f.Good) → ∀ kv ∈ fieldPairs l, (58 : UInt8) ∉ kv.1 := by
    intro l hl kv hkv
    obtain ⟨f, hm, rfl⟩ := List.mem_map.1 hkv
    exact (hl f hm).name
  obtain ⟨hs, h1, h2, h3⟩ := C15_last_wins c s _ _ t (folded_fields hf) (raw _ hf) (col _ hf) hd
  obtain ⟨hs', k1, k2, k3⟩ := C15_last_wins c u _ _ t (folded_fields hg) (raw _ hg) (col _ hg) hd'
  rcases e1 : HttpHeaders.deserialize c s with ⟨x, s'⟩
  rcases e2 : HttpHeaders.deserialize c u with ⟨y, u'⟩
  rw [e1] at h1 h2
  rw [e2] at k1 k2
  dsimp only at h1 h2 k1 k2
  subst h1 k1
  have he : hs' = hs := (C134_headers _ _ (.received e2) (.received e1)).2 fun name =>
    answers_same k3 h3 name fun v => h.last _ v
  rw [he]
  exact ⟨hs, s', u', rfl, rfl, h2, k2⟩

/-- Reading the head comes to the same, whatever the first line is. -/
theorem parseHead_reordered {α : Type} {c : Cfg} (start : Bytes → Res α) {s : σ} {u : τ} {line : Bytes} {fs gs : List RawField}
    {t : List Ev} (hl : RawLine line) (hf : ∀ f ∈ fs, f.Good) (h : Reordered fs gs)
    (hd : Delivers c (trace s) (blockBytes (line :: fs.flatMap (·.lines))) t)
    (hd' : Delivers c (trace u) (blockBytes (line :: gs.flatMap (·.lines))) t) :
    (parseHead c start s).1 = (parseHead c start u).1 ∧
      ∀ x, (parseHead c start s).1 = .ok x → trace (parseHead c start s).2 = trace (parseHead c start u).2 := by
  have cut : ∀ ls : List Bytes, blockBytes (line :: ls) = (line ++ [13, 10]) ++ blockBytes ls := by
    intro ls; simp [blockBytes]
  rw [cut] at hd hd'
  obtain ⟨t1, d1, d2⟩ := hd.split
  obtain ⟨t2, d3, d4⟩ := hd'.split
  obtain ⟨s1, e1, rfl⟩ := expectNext_line hl d1
  obtain ⟨u1, e2, rfl⟩ := expectNext_line hl d3
  obtain ⟨hs, s2, u2, k1, k2, k3, k4⟩ := headers_reordered hf h d2 d4
  unfold parseHead
  rw [e1, e2]
  dsimp only
  cases start line with
  | err e => exact ⟨rfl, by simp⟩
  | panic => exact ⟨rfl, by simp⟩
  | ok a =>
    dsimp only
    rw [k1, k2]
    dsimp only
    cases contentLengthOf hs with
    | err e => exact ⟨rfl, by simp⟩
    | panic => exact ⟨rfl, by simp⟩
    | ok n => exact ⟨rfl, fun _ _ => k3.trans k4.symm⟩

variable [ZeroReader σ] [ZeroReader τ]

/-- Two requests with the same first line and the same header fields in another order, in which fields of the same name have
kept theirs: what comes of them is the same, whether they are accepted or not. -/
theorem C175_request (c : Cfg) (s : σ) (u : τ) (line : Bytes) (fs gs : List RawField) (t : List Ev) (hl : RawLine line)
    (hf : ∀ f ∈ fs, f.Good) (h : Reordered fs gs) (hd : Delivers c (trace s) (blockBytes (line :: fs.flatMap (·.lines))) t)
    (hd' : Delivers c (trace u) (blockBytes (line :: gs.flatMap (·.lines))) t) :
    SameOutcome (fun r r' => r.method = r'.method ∧ r.uri = r'.uri ∧ r.version = r'.version ∧ r.headers = r'.headers ∧
      SameBody r.body r'.body) (HttpRequest.deserialize c s).1 (HttpRequest.deserialize c u).1 := by
  have hp := parseHead_reordered parseRequestLine hl hf h hd hd'
  unfold HttpRequest.deserialize
  rcases h1 : parseHead c parseRequestLine s with ⟨r1, s1⟩
  rcases h2 : parseHead c parseRequestLine u with ⟨r2, u1⟩
  rw [h1, h2] at hp
  obtain ⟨rfl, ht⟩ := hp
  dsimp only at ht
  rcases r1 with ⟨⟨m, uri, v⟩, hs, enc, n⟩ | e | _
  · exact .ok ⟨rfl, rfl, rfl, rfl, sameBody_new (ht _ rfl) enc n⟩
  · exact .err e
  · exact .panic

/-- The same for responses. -/
theorem C175_response (c : Cfg) (s : σ) (u : τ) (line : Bytes) (fs gs : List RawField) (t : List Ev) (hl : RawLine line)
    (hf : ∀ f ∈ fs, f.Good) (h : Reordered fs gs) (hd : Delivers c (trace s) (blockBytes (line :: fs.flatMap (·.lines))) t)
    (hd' : Delivers c (trace u) (blockBytes (line :: gs.flatMap (·.lines))) t) :
    SameOutcome (fun r r' => r.version = r'.version ∧ r.status = r'.status ∧ r.headers = r'.headers ∧
      SameBody r.body r'.body) (HttpResponse.deserialize c s).1 (HttpResponse.deserialize c u).1 := by
  have hp := parseHead_reordered parseStatusLine hl hf h hd hd'
  unfold HttpResponse.deserialize
  rcases h1 : parseHead c parseStatusLine s with ⟨r1, s1⟩
  rcases h2 : parseHead c parseStatusLine u with ⟨r2, u1⟩
  rw [h1, h2] at hp
  obtain ⟨rfl, ht⟩ := hp
  dsimp only at ht
  rcases r1 with ⟨⟨v, st⟩, hs, enc, n⟩ | e | _
  · exact .ok ⟨rfl, rfl, rfl, sameBody_new (by rw [BufReader.trace_new, BufReader.trace_new]; exact ht _ rfl) enc n⟩
  · exact .err e
  · exact .panic

end

section
variable {c : Cfg} {σ ρ η ε : Type} [LawfulReader σ] [ZeroReader σ] [LawfulWriter σ] [LawfulReader ρ] [ZeroReader ρ]

/-- And the server answers them alike. -/
theorem C175_answer {P : σ → Prop} (hra : ReadsApart σ) (hrel : Reliable c P) (hkept : ∀ s n, P s → P (read s n).2)
    (h : Handler c η σ ρ ε) (ho : OnlyReads h) (hb : ByContent h) (errText : Err → Bytes) (s u : σ) (self : η) (hs : P s) (hu : P u)
    (line : Bytes) (fs gs : List RawField) (t : List Ev) (hl : RawLine line) (hf : ∀ f ∈ fs, f.Good) (hr : Reordered fs gs)
    (hd : Delivers c (trace s) (blockBytes (line :: fs.flatMap (·.lines))) t)
    (hd' : Delivers c (trace u) (blockBytes (line :: gs.flatMap (·.lines))) t) : SameAnswer h errText s u self := by
  have h9 := C175_request c (BufReader.new c s) (BufReader.new c u) line fs gs t hl hf hr
    (by rw [BufReader.trace_new]; exact hd) (by rw [BufReader.trace_new]; exact hd')
  have key : (h.serveOneInner errText s self).1 = (h.serveOneInner errText u self).1 ∧
      (h.serveOneInner errText s self).2.2 = (h.serveOneInner errText u self).2.2 := by
    rcases hx : HttpRequest.deserialize c (BufReader.new c s) with ⟨x, s1⟩
    rcases hy : HttpRequest.deserialize c (BufReader.new c u) with ⟨y, u1⟩
    rw [hx, hy] at h9
    dsimp only at h9
    cases h9 with
    | err e =>
      rw [serveOneInner_err h errText self hx, serveOneInner_err h errText self hy]; exact ⟨rfl, rfl⟩
    | panic => rw [serveOneInner_panic h errText self hx, serveOneInner_panic h errText self hy]; exact ⟨rfl, rfl⟩
    | ok hr => exact handled_same h hb errText self hx hy hr.1 hr.2.1 fun _ => ⟨hr.2.2.2.2.kind, hr.2.2.2.2.events⟩
  exact same_answer hra hrel hkept h ho errText s u self hs hu key.1 key.2

end

end

/-- `a: 1` on two lines, `Content-Length: 3`, and `A: 2`. -/
def someFields : List RawField :=
  [⟨b!"a", b!"1 x", [b!"a: 1", b!" x"]⟩, ⟨b!"Content-Length", b!"3", [b!"Content-Length: 3"]⟩, ⟨b!"A", b!"2", [b!"A: 2"]⟩]

theorem someFields_good : ∀ f ∈ someFields, f.Good := by
  have raw : ∀ l : Bytes, isAscii l = true → l ≠ [] → ¬ HasCrLf l → RawLine l := by
    intro l h1 h2 h3
    exact ⟨h2, h3, isText_ascii h1⟩
  intro f hf
  simp only [someFields, List.mem_cons, List.not_mem_nil, or_false] at hf
  rcases hf with rfl | rfl | rfl
  · refine ⟨?_, by decide, by decide, b!"a: 1", [b!" x"], rfl, by rw [← startsBlank_iff]; decide, ?_⟩
    · intro l hl
      simp only [List.mem_cons, List.not_mem_nil, or_false] at hl
      rcases hl with rfl | rfl <;> exact raw _ (by decide) (by decide) (by unfold HasCrLf; decide)
    · intro l hl
      simp only [List.mem_cons, List.not_mem_nil, or_false] at hl
      rw [hl, ← startsBlank_iff]; decide
  · refine ⟨?_, by decide, by decide, _, [], rfl, by rw [← startsBlank_iff]; decide, by simp⟩
    intro l hl
    simp only [List.mem_cons, List.not_mem_nil, or_false] at hl
    rw [hl]; exact raw _ (by decide) (by decide) (by unfold HasCrLf; decide)
  · refine ⟨?_, by decide, by decide, _, [], rfl, by rw [← startsBlank_iff]; decide, by simp⟩
    intro l hl
    simp only [List.mem_cons, List.not_mem_nil, or_false] at hl
    rw [hl]; exact raw _ (by decide) (by decide) (by unfold HasCrLf; decide)

/-- The content length can be moved to the end. -/
theorem someFields_reordered : letI : CaseMap := asciiCase
    Reordered someFields [⟨b!"a", b!"1 x", [b!"a: 1", b!" x"]⟩, ⟨b!"A", b!"2", [b!"A: 2"]⟩,
      ⟨b!"Content-Length", b!"3", [b!"Content-Length: 3"]⟩] := by
  letI : CaseMap := asciiCase
  exact .swap (pre := [⟨b!"a", b!"1 x", [b!"a: 1", b!" x"]⟩]) (post := []) (by decide) (.refl _)

/-- `C175_request`, `C175_response` and `C175_answer`: two such messages. -/
example (c : Cfg) : letI : CaseMap := asciiCase
    (match HttpRequest.deserialize c (Wire.mk [.data b!"PUT / HTTP/1.1\r\na: 1\r\n x\r\nContent-Length: 3\r\nA: 2\r\n\r\nxyz"]),
      HttpRequest.deserialize c (Wire.mk [.data b!"PUT / HTTP/1.1\r\na: 1\r\n x\r\nA: 2\r\nContent-Length: 3\r\n\r\nxyz"]) with
    | (.ok r, _), (.ok r', _) => decide (r.headers = r'.headers ∧ r.headers.get b!"a" = some b!"2" ∧ r.method = .Put)
    | _, _ => false) = true := by rcases c with ⟨_ | _⟩ <;> decide +kernel

/-- The order of fields of the same name does matter. -/
example (c : Cfg) : letI : CaseMap := asciiCase
    (match HttpRequest.deserialize c (Wire.mk [.data b!"GET / HTTP/1.1\r\na: 1\r\nA: 2\r\n\r\n"]),
      HttpRequest.deserialize c (Wire.mk [.data b!"GET / HTTP/1.1\r\nA: 2\r\na: 1\r\n\r\n"]) with
    | (.ok r, _), (.ok r', _) => decide (r.headers ≠ r'.headers)
    | _, _ => false) = true := by rcases c with ⟨_ | _⟩ <;> decide +kernel

end HttpIo
