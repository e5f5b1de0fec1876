import Verif.Lemmas.Message

/-! C09, C10, C11, C17 (whole messages), C18, C19, C20, C21, C32: message heads. -/

namespace HttpIo
open Spec

/-! ### C09 -/

section
variable {σ τ : Type} [LawfulReader σ] [ZeroReader σ] [LawfulReader τ] [ZeroReader τ]

theorem sameBody_new {c : Cfg} {s : σ} {u : τ} (h : trace s = trace u) (enc : Option Bytes) (n : Option Nat) :
    SameBody (HttpBody.new c enc n s) (HttpBody.new c enc n u) := by
  unfold HttpBody.new
  by_cases he : enc = some b!"chunked"
  · rw [if_pos he, if_pos he]
    refine ⟨rfl, rfl, ?_, ?_⟩
    · rw [HttpBody.trace_chunked, HttpBody.trace_chunked, HttpChunkedBody.trace_new, HttpChunkedBody.trace_new, h]
    · simp [HttpBody.under, HttpChunkedBody.new, h]
  · rw [if_neg he, if_neg he]
    cases n with
    | none =>
      refine ⟨rfl, rfl, ?_, ?_⟩
      · rw [HttpBody.trace_tilClose, HttpBody.trace_tilClose, h]
      · simp [HttpBody.under, h]
    | some n =>
      refine ⟨rfl, rfl, ?_, ?_⟩
      · rw [HttpBody.trace_limited, HttpBody.trace_limited, h]
      · simp [HttpBody.under, h]

/-- Two transports with the same pending events (however each splits them into reads) give the same request. -/
theorem C09_request [CaseMap] (c : Cfg) (s : σ) (u : τ) (h : trace s = trace u) :
    SameOutcome (fun r r' => r.method = r'.method ∧ r.uri = r'.uri ∧ r.version = r'.version ∧
        r.headers = r'.headers ∧ SameBody r.body r'.body)
      (HttpRequest.deserialize c s).1 (HttpRequest.deserialize c u).1 ∧
    trace (HttpRequest.deserialize c s).2 = trace (HttpRequest.deserialize c u).2 := by
  have hp := parseHead_sim (c := c) (start := parseRequestLine) h
  unfold HttpRequest.deserialize
  rcases h1 : parseHead c parseRequestLine s with ⟨r1, s1⟩
  rcases h2 : parseHead c parseRequestLine u with ⟨r2, u1⟩
  rw [h1, h2] at hp
  obtain ⟨rfl, ht⟩ := hp
  dsimp only at ht
  rcases r1 with ⟨⟨m, uri, v⟩, hs, enc, n⟩ | e | _
  · exact ⟨.ok ⟨rfl, rfl, rfl, rfl, sameBody_new ht enc n⟩, ht⟩
  · exact ⟨.err e, ht⟩
  · exact ⟨.panic, ht⟩

/-- The same for responses. -/
theorem C09_response [CaseMap] (c : Cfg) (s : σ) (u : τ) (h : trace s = trace u) :
    SameOutcome (fun r r' => r.version = r'.version ∧ r.status = r'.status ∧
        r.headers = r'.headers ∧ SameBody r.body r'.body)
      (HttpResponse.deserialize c s).1 (HttpResponse.deserialize c u).1 ∧
    trace (HttpResponse.deserialize c s).2 = trace (HttpResponse.deserialize c u).2 := by
  have hp := parseHead_sim (c := c) (start := parseStatusLine) h
  unfold HttpResponse.deserialize
  rcases h1 : parseHead c parseStatusLine s with ⟨r1, s1⟩
  rcases h2 : parseHead c parseStatusLine u with ⟨r2, u1⟩
  rw [h1, h2] at hp
  obtain ⟨rfl, ht⟩ := hp
  dsimp only at ht
  rcases r1 with ⟨⟨m, v⟩, hs, enc, n⟩ | e | _
  · exact ⟨.ok ⟨rfl, rfl, rfl, sameBody_new (by simpa using ht) enc n⟩, ht⟩
  · exact ⟨.err e, ht⟩
  · exact ⟨.panic, ht⟩

end

/-- Two fragmentations of one stream, with a fault in the body. -/
example : trace (Wire.mk [.data b!"GET / HTTP/1.1\r\nhost: a\r\n\r\nbo", .fault .other, .data b!"dy"]) =
    trace (Wire.mk [.data b!"GET / HT", .data b!"TP/1.1\r", .data b!"\nhost: a\r\n", .data [], .data b!"\r\nb",
      .data b!"o", .fault .other, .data b!"d", .data b!"y"]) := by decide

/-! ### C10 -/

section
variable {σ : Type} [LawfulReader σ] [ZeroReader σ]

/-- A request head that parses has been consumed up to and including its blank line; the body starts at the next
byte; and on any other transport that delivers the same head, whatever follows, the same head is parsed and the
body starts with what follows. `RawLine` lines are not empty and contain no CR LF, so the blank line is the first
one. -/
theorem C10_request [CaseMap] (c : Cfg) (s s' : σ) (r : HttpRequest c σ)
    (h : HttpRequest.deserialize c s = (.ok r, s')) :
    ∃ line lines, RawLine line ∧ (∀ l ∈ lines, RawLine l) ∧
      Delivers c (trace s) (blockBytes (line :: lines)) (trace s') ∧ r.body.under = some s' ∧
      ∀ (τ : Type) [LawfulReader τ] [ZeroReader τ] (u : τ) (rest : List Ev),
        Delivers c (trace u) (blockBytes (line :: lines)) rest →
        ∃ r' u', HttpRequest.deserialize c u = (.ok r', u') ∧ r'.method = r.method ∧ r'.uri = r.uri ∧
          r'.version = r.version ∧ r'.headers = r.headers ∧ framing r'.body = framing r.body ∧
          r'.body.under = some u' ∧ trace u' = rest := by
  unfold HttpRequest.deserialize at h
  rcases h1 : parseHead c parseRequestLine s with ⟨r1, s1⟩
  rw [h1] at h
  rcases r1 with ⟨⟨m, uri, v⟩, hs, enc, n⟩ | e | _
  · simp only [Prod.mk.injEq, Res.ok.injEq] at h
    obtain ⟨rfl, rfl⟩ := h
    obtain ⟨line, lines, hl, hls, hst, hd⟩ := parseHead_inv h1
    refine ⟨line, lines, hl, hls, hd, ?_, ?_⟩
    · unfold HttpBody.new
      by_cases he : enc = some b!"chunked"
      · rw [if_pos he]; rfl
      · rw [if_neg he]; cases n <;> rfl
    · intro τ _ _ u rest hu
      obtain ⟨logical, hf⟩ := folded_exists lines
      obtain ⟨g1, g2⟩ := parseHead_block (start := parseRequestLine) hl hls hf hd
      obtain ⟨k1, k2⟩ := parseHead_block (start := parseRequestLine) hl hls hf hu
      rw [h1] at g1
      rw [← g1] at k1
      dsimp only at k1
      rcases h2 : parseHead c parseRequestLine u with ⟨r2, u1⟩
      rw [h2] at k1 k2
      dsimp only at k1 k2
      subst k1
      refine ⟨_, _, by unfold HttpRequest.deserialize; rw [h2], rfl, rfl, rfl, rfl, ?_, ?_, ?_⟩
      · dsimp only; unfold HttpBody.new
        by_cases he : enc = some b!"chunked"
        · rw [if_pos he, if_pos he]; rfl
        · rw [if_neg he, if_neg he]; cases n <;> rfl
      · dsimp only; unfold HttpBody.new
        by_cases he : enc = some b!"chunked"
        · rw [if_pos he]; rfl
        · rw [if_neg he]; cases n <;> rfl
      · apply k2
        refine ⟨(m, uri, v), ?_⟩
        cases hp : parseLines logical with
        | ok hds => exact ⟨hds, hst, rfl⟩
        | err e => unfold headOutcome at g1; rw [hst, hp] at g1; simp at g1
        | panic => unfold headOutcome at g1; rw [hst, hp] at g1; simp at g1
  · simp at h
  · simp at h

/-- The same for responses: the body reads from a fresh buffer over the socket, which stands right after the blank
line. -/
theorem C10_response [CaseMap] (c : Cfg) (s s' : σ) (r : HttpResponse c (BufReader c σ))
    (h : HttpResponse.deserialize c s = (.ok r, s')) :
    ∃ line lines, RawLine line ∧ (∀ l ∈ lines, RawLine l) ∧
      Delivers c (trace s) (blockBytes (line :: lines)) (trace s') ∧ r.body.under = some (BufReader.new c s') ∧
      ∀ (τ : Type) [LawfulReader τ] [ZeroReader τ] (u : τ) (rest : List Ev),
        Delivers c (trace u) (blockBytes (line :: lines)) rest →
        ∃ r' u', HttpResponse.deserialize c u = (.ok r', u') ∧ r'.version = r.version ∧ r'.status = r.status ∧
          r'.headers = r.headers ∧ framing r'.body = framing r.body ∧
          r'.body.under = some (BufReader.new c u') ∧ trace u' = rest := by
  unfold HttpResponse.deserialize at h
  rcases h1 : parseHead c parseStatusLine s with ⟨r1, s1⟩
  rw [h1] at h
  rcases r1 with ⟨⟨m, v⟩, hs, enc, n⟩ | e | _
  · simp only [Prod.mk.injEq, Res.ok.injEq] at h
    obtain ⟨rfl, rfl⟩ := h
    obtain ⟨line, lines, hl, hls, hst, hd⟩ := parseHead_inv h1
    refine ⟨line, lines, hl, hls, hd, ?_, ?_⟩
    · unfold HttpBody.new
      by_cases he : enc = some b!"chunked"
      · rw [if_pos he]; rfl
      · rw [if_neg he]; cases n <;> rfl
    · intro τ _ _ u rest hu
      obtain ⟨logical, hf⟩ := folded_exists lines
      obtain ⟨g1, g2⟩ := parseHead_block (start := parseStatusLine) hl hls hf hd
      obtain ⟨k1, k2⟩ := parseHead_block (start := parseStatusLine) hl hls hf hu
      rw [h1] at g1
      rw [← g1] at k1
      dsimp only at k1
      rcases h2 : parseHead c parseStatusLine u with ⟨r2, u1⟩
      rw [h2] at k1 k2
      dsimp only at k1 k2
      subst k1
      refine ⟨_, _, by unfold HttpResponse.deserialize; rw [h2], rfl, rfl, rfl, ?_, ?_, ?_⟩
      · dsimp only; unfold HttpBody.new
        by_cases he : enc = some b!"chunked"
        · rw [if_pos he, if_pos he]; rfl
        · rw [if_neg he, if_neg he]; cases n <;> rfl
      · dsimp only; unfold HttpBody.new
        by_cases he : enc = some b!"chunked"
        · rw [if_pos he]; rfl
        · rw [if_neg he]; cases n <;> rfl
      · apply k2
        refine ⟨(m, v), ?_⟩
        cases hp : parseLines logical with
        | ok hds => exact ⟨hds, hst, rfl⟩
        | err e => unfold headOutcome at g1; rw [hst, hp] at g1; simp at g1
        | panic => unfold headOutcome at g1; rw [hst, hp] at g1; simp at g1
  · simp at h
  · simp at h

end

/-! ### C17, for whole messages -/

section
variable {σ : Type} [LawfulReader σ]

/-- A message head with a logical header line that is not `name: value` is not accepted. -/
theorem C17_message [CaseMap] (c : Cfg) (s : σ) (line : Bytes) (raw logical : List Bytes) (t' : List Ev)
    (hl : RawLine line) (hraw : ∀ l ∈ raw, RawLine l) (hf : Folded raw logical)
    (hbad : ∃ l ∈ logical, ¬ ∃ k v, HeaderLine l k v)
    (h : Delivers c (trace s) (blockBytes (line :: raw)) t') :
    (∀ r, (HttpRequest.deserialize c s).1 ≠ .ok r) ∧ (∀ r, (HttpResponse.deserialize c s).1 ≠ .ok r) := by
  have hp : ∀ r, parseLines logical ≠ .ok r := by
    intro r hr
    obtain ⟨l, hl, hb⟩ := hbad
    exact hb ((parseLines_iff (folded_isText hf hraw)).1 ⟨r, hr⟩ l hl)
  have hq : ∀ {α : Type} (start : Bytes → Res α) r, headOutcome start line logical ≠ .ok r := by
    intro α start r
    unfold headOutcome
    cases start line with
    | err e => simp
    | panic => simp
    | ok a =>
      dsimp only
      cases hpl : parseLines logical with
      | err e => simp
      | panic => simp
      | ok hds => exact absurd hpl (hp hds)
  refine ⟨fun r hr => ?_, fun r hr => ?_⟩
  · have hb := (parseHead_block (start := parseRequestLine) hl hraw hf h).1
    unfold HttpRequest.deserialize at hr
    rcases h1 : parseHead c parseRequestLine s with ⟨r1, s1⟩
    rw [h1] at hr hb
    cases r1 with
    | err e => simp at hr
    | panic => simp at hr
    | ok a => exact hq _ _ hb.symm
  · have hb := (parseHead_block (start := parseStatusLine) hl hraw hf h).1
    unfold HttpResponse.deserialize at hr
    rcases h1 : parseHead c parseStatusLine s with ⟨r1, s1⟩
    rw [h1] at hr hb
    cases r1 with
    | err e => simp at hr
    | panic => simp at hr
    | ok a => exact hq _ _ hb.symm

end

/-- The line `host:a` has no space after the colon. -/
example : (∃ l ∈ [b!"accept: b", b!"host:a"], ¬ ∃ k v, HeaderLine l k v) ∧
    Folded [b!"accept: b", b!"host:a"] [b!"accept: b", b!"host:a"] := by
  refine ⟨⟨b!"host:a", by simp, ?_⟩, folded_self ?_⟩
  · rintro ⟨k, v, h, hk⟩
    rcases k with _ | ⟨a, _ | ⟨b, _ | ⟨d, _ | ⟨e, _ | ⟨f, _ | ⟨g, k⟩⟩⟩⟩⟩⟩ <;> simp at h hk <;> simp_all
  · intro l hl
    simp only [List.mem_cons, List.not_mem_nil, or_false] at hl
    rcases hl with rfl | rfl <;> (rw [← startsBlank_iff]; decide)

end HttpIo
