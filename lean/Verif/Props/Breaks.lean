import Verif.Spec.Breaks
import Verif.Lemmas.Errors
import Verif.Lemmas.Panic
import Verif.Props.Accept
import Verif.Props.Body
import Verif.Props.Depends

/-! C91, C92: a head or a body that breaks off is reported as what broke it. -/

namespace HttpIo
open Spec

section
variable {c : Cfg} {σ : Type} [LawfulReader σ]

theorem innerNextT_breaks {t : List Ev} {e : Err} (h : BreaksOff c t e) : (innerNextT c [] t).1 = .error e := by
  obtain ⟨part, t', h1, h2, ⟨t'', h3⟩ | ⟨h3, rfl⟩⟩ := h
  · rw [innerNextT_prefix h1 [] (by simpa using h2), innerNextT_fails h3]
  · rw [innerNextT_prefix h1 [] (by simpa using h2), innerNextT_ended h3]

/-- The next line cannot be read. -/
def Unreadable (c : Cfg) (t : List Ev) (e : Err) : Prop := (innerNextT c [] t).1 = .error e

theorem innerNext_breaks {s : σ} {e : Err} (h : Unreadable c (trace s) e) : (innerNext c s).1 = .error e := by
  have h1 : (innerNextT c [] (trace s)).1 = .error e := h
  rcases h2 : innerNextT c [] (trace s) with ⟨r, t⟩
  rw [h2] at h1
  rw [(innerNext_eq h2).1]; exact h1

theorem crlfNext_breaks {s : σ} {e : Err} (h : Unreadable c (trace s) e) : (crlfNext c s).1 = some (.error e) := by
  have h1 := innerNext_breaks h
  unfold crlfNext
  rcases h2 : innerNext c s with ⟨r, s'⟩
  rw [h2] at h1
  dsimp only at h1
  subst h1; rfl

theorem expectNext_breaks {s : σ} {e : Err} (h : Unreadable c (trace s) e) : (expectNext c s).1 = .error e := by
  have h1 := innerNext_breaks h
  unfold expectNext
  rcases h2 : innerNext c s with ⟨r, s'⟩
  rw [h2] at h1
  dsimp only at h1
  subst h1; rfl

theorem lineOver_breaks {t : List Ev} {e : Err} (h : Unreadable c t e) : LineOver c t := by
  intro l t' hl hd _
  have h1 : (innerNextT c [] t).1 = .error e := h
  rw [innerNextT_line hl.2.1 hd] at h1
  unfold lineOutcome at h1
  have h3 := (validUtf8_iff _).2 hl.2.2
  split at h1
  · simp at h1
  · simp [h3] at h1

variable [CaseMap]

theorem loop_breaks {raw logical : List Bytes} (hf : Folded raw logical) {e : Err} :
    ∀ {s : σ} {t' : List Ev} (acc : List HttpHeader),
    (∀ l ∈ raw, RawLine l) → (∀ l tl, raw = l :: tl → Delivers c (trace s) (tl.flatMap (· ++ [13, 10])) t') →
    Unreadable c t' e → (∀ l ∈ logical, ∃ k v, HeaderLine l k v) → raw ≠ [] →
    (HttpHeaders.deserializeLoop c (raw.head?.map .ok) acc s).1 = .err e := by
  induction hf with
  | nil => intro s t' acc _ _ _ _ h; exact absurd rfl h
  | @line first conts rest logical hconts hrest hf ih =>
    intro s t' acc hraw hd hbr hgood _
    have hd' := hd first (conts ++ rest) rfl
    have hvt := (validUtf8_iff _).2
      (isText_flatten (hraw first (by simp)).2.2 fun x (hx : x ∈ conts) => (hraw x (by simp [hx])).2.2)
    have hc : ∀ l ∈ conts, RawLine l ∧ StartsBlank l := fun l hl => ⟨hraw l (by simp [hl]), hconts l hl⟩
    rw [List.flatMap_append] at hd'
    obtain ⟨m, hm1, hm2⟩ := hd'.split
    have hover : LineOver c m := by
      cases rest with
      | nil =>
        simp only [List.flatMap_nil] at hm2
        rw [delivers_none hm2]; exact lineOver_breaks hbr
      | cons n rest =>
        rw [List.flatMap_cons] at hm2
        obtain ⟨m2, hk1, hk2⟩ := hm2.split
        intro l t2 hl hdl
        rw [line_unique hl hdl (hraw n (by simp)) hk1]
        exact hrest n rfl
    obtain ⟨s0, h3, h4⟩ := gather_conts first hc hm1 hover
    simp only [List.head?_cons, Option.map_some]
    unfold HttpHeaders.deserializeLoop
    simp only [h4]
    obtain ⟨k, v, hkv⟩ := hgood (first ++ conts.flatten) (by simp)
    rw [(HttpHeader.deserialize_iff hvt ⟨CaseMap.lower k, v⟩).2 ⟨k, v, hkv, rfl⟩]
    dsimp only
    cases rest with
    | nil =>
      simp only [List.flatMap_nil] at hm2
      rw [crlfNext_breaks (by rw [h3, delivers_none hm2]; exact hbr)]
      unfold HttpHeaders.deserializeLoop
      rfl
    | cons n rest =>
      rw [List.flatMap_cons] at hm2
      obtain ⟨m2, hk1, hk2⟩ := hm2.split
      obtain ⟨s2, h5, h6⟩ := crlfNext_line (s := s0) (hraw n (by simp)) (by rw [h3]; exact hk1)
      rw [h5]
      exact ih (s := s2) (t' := t') (acc ++ [⟨CaseMap.lower k, v⟩])
        (fun l hl => hraw l (by simp at hl ⊢; exact .inr (.inr hl)))
        (by rintro l tl he; simp only [List.cons.injEq] at he; rw [← he.2, h6]; exact hk2) hbr
        (fun l hl => hgood l (by simp [hl])) (by simp)

theorem headers_break {raw logical : List Bytes} (hf : Folded raw logical) {e : Err} {s : σ} {t' : List Ev}
    (hraw : ∀ l ∈ raw, RawLine l) (hd : Delivers c (trace s) (raw.flatMap (· ++ [13, 10])) t') (hb : Unreadable c t' e)
    (hg : ∀ l ∈ logical, ∃ k v, HeaderLine l k v) : (HttpHeaders.deserialize c s).1 = .err e := by
  have key : (HttpHeaders.deserializeLoop c (crlfNext c s).1 [] (crlfNext c s).2).1 = .err e := by
    cases raw with
    | nil =>
      simp only [List.flatMap_nil] at hd
      rw [crlfNext_breaks (by rw [delivers_none hd]; exact hb)]
      unfold HttpHeaders.deserializeLoop
      rfl
    | cons l raw =>
      rw [List.flatMap_cons] at hd
      obtain ⟨m, hm1, hm2⟩ := hd.split
      obtain ⟨s1, h1, h2⟩ := crlfNext_line (hraw l (by simp)) hm1
      rw [h1]
      exact loop_breaks hf [] hraw (by rintro x tl he; simp only [List.cons.injEq] at he; rw [← he.2, h2]; exact hm2) hb hg
        (by simp)
  unfold HttpHeaders.deserialize
  rcases h1 : crlfNext c s with ⟨item, s1⟩
  rw [h1] at key
  dsimp only at key ⊢
  rcases h2 : HttpHeaders.deserializeLoop c item [] s1 with ⟨r | e' | _, s2⟩ <;> rw [h2] at key <;> simp_all

theorem parseHead_breaks {α : Type} {start : Bytes → Res α} {ok : Bytes → Prop}
    (hok : ∀ l, RawLine l → ok l → ∃ a, start l = .ok a) {e : Err} {s : σ}
    (h : Unreadable c (trace s) e ∨ ∃ bs t', HeadBegun ok bs ∧ Delivers c (trace s) bs t' ∧ Unreadable c t' e) :
    (parseHead c start s).1 = .err e := by
  unfold parseHead
  rcases h with h | ⟨bs, t', ⟨line, raw, logical, h1, h2, h3, h4, h5, rfl⟩, h6, h7⟩
  · have := expectNext_breaks h
    rcases h1 : expectNext c s with ⟨r, s1⟩
    rw [h1] at this
    dsimp only at this
    subst this; rfl
  · rw [List.flatMap_cons] at h6
    obtain ⟨m, hm1, hm2⟩ := h6.split
    obtain ⟨s1, g1, g2⟩ := expectNext_line h1 hm1
    obtain ⟨a, ha⟩ := hok line h1 h2
    have := headers_break h4 (s := s1) h3 (by rw [g2]; exact hm2) h7 h5
    rw [g1]
    dsimp only
    rw [ha]
    dsimp only
    rcases h8 : HttpHeaders.deserialize c s1 with ⟨r | e' | _, s2⟩ <;> rw [h8] at this <;> simp_all

theorem request_unreadable (c : Cfg) (s : σ) (e : Err)
    (h : Unreadable c (trace s) e ∨ ∃ bs t', HeadBegun (fun l => ∃ m p a b, RequestLine l m p a b) bs ∧
      Delivers c (trace s) bs t' ∧ Unreadable c t' e) : (HttpRequest.deserialize c s).1 = .err e := by
  have := parseHead_breaks (start := parseRequestLine) (fun l hl ⟨m, p, a, b, hx⟩ =>
    ⟨(m, p, ⟨a, b⟩), (requestLine_ok_iff ((validUtf8_iff _).2 hl.2.2) m p ⟨a, b⟩).2 hx⟩) h
  unfold HttpRequest.deserialize
  rcases h1 : parseHead c parseRequestLine s with ⟨⟨⟨_, _, _⟩, _, _, _⟩ | e' | _, s1⟩ <;> rw [h1] at this <;> simp_all

/-- A request whose head breaks off, the transport failing or ending within the start line, within a header line or
between lines, is not a request, and the error is what broke it: the transport's own error, as the transport gave it, or
the error for an end too soon. -/
theorem C91_request (c : Cfg) (s : σ) (e : Err)
    (h : BreaksOff c (trace s) e ∨ ∃ bs t', HeadBegun (fun l => ∃ m p a b, RequestLine l m p a b) bs ∧
      Delivers c (trace s) bs t' ∧ BreaksOff c t' e) : (HttpRequest.deserialize c s).1 = .err e := by
  exact request_unreadable c s e (h.imp innerNextT_breaks fun ⟨bs, t', h1, h2, h3⟩ => ⟨bs, t', h1, h2, innerNextT_breaks h3⟩)

/-- The same for a response. -/
theorem C91_response (c : Cfg) (s : σ) (e : Err)
    (h : BreaksOff c (trace s) e ∨ ∃ bs t', HeadBegun (fun l => ∃ a b code, StatusLine l a b code) bs ∧
      Delivers c (trace s) bs t' ∧ BreaksOff c t' e) : (HttpResponse.deserialize c s).1 = .err e := by
  have := parseHead_breaks (start := parseStatusLine) (fun l hl ⟨a, b, code, hx⟩ =>
    ⟨(⟨a, b⟩, HttpStatus.fromCode (UInt32.ofNat code)), (statusLine_ok_iff ((validUtf8_iff _).2 hl.2.2) ⟨a, b⟩ _).2 ⟨code, hx, rfl⟩⟩)
    (h.imp innerNextT_breaks fun ⟨bs, t', h1, h2, h3⟩ => ⟨bs, t', h1, h2, innerNextT_breaks h3⟩)
  unfold HttpResponse.deserialize
  rcases h1 : parseHead c parseStatusLine s with ⟨⟨⟨_, _⟩, _, _, _⟩ | e' | _, s1⟩ <;> rw [h1] at this <;> simp_all

/-- No other errors: what the parsers of messages report is either a failure that the transport had, as it was, or
something wrong with the bytes. -/
theorem C91_sources (c : Cfg) (s : σ) (e : Err)
    (h : (HttpRequest.deserialize c s).1 = .err e ∨ (HttpResponse.deserialize c s).1 = .err e) :
    .fault e ∈ trace s ∨ Malformed e := by
  have key : ∀ e, ParseErr e → Malformed e := by
    intro e he
    rcases he with rfl | rfl | rfl | rfl
    · exact .parse
    · exact .parseInt
    · exact .utf8
    · exact .eof
  rcases h with h | h
  · exact (request_faults h).imp id (key e)
  · exact (response_faults h).imp id (key e)

end

/-- A request that stops within its second header line because the connection timed out; a response that ends right
after its status line. -/
example (c : Cfg) : let _ := asciiCase
    (HttpRequest.deserialize c (Wire.mk [.data b!"GET / HTTP/1.1\r\nHost: a\r\nAcc", .fault (.io (.other 7))])).1 = .err (.io (.other 7)) ∧
    (HttpResponse.deserialize c (Wire.mk [.data b!"HTTP/1.1 200 OK\r\n"])).1 = .err .unexpectedEof := by
  intro _
  have hl : RawLine b!"GET / HTTP/1.1" := ⟨by decide, by unfold HasCrLf; decide, isText_ascii (by decide)⟩
  have hh : RawLine b!"Host: a" := ⟨by decide, by unfold HasCrLf; decide, isText_ascii (by decide)⟩
  have hs : RawLine b!"HTTP/1.1 200 OK" := ⟨by decide, by unfold HasCrLf; decide, isText_ascii (by decide)⟩
  have hd1 : Delivers c (trace (Wire.mk [.data b!"GET / HTTP/1.1\r\nHost: a\r\nAcc", .fault (.io (.other 7))]))
      ([b!"GET / HTTP/1.1", b!"Host: a"].flatMap (· ++ [13, 10])) (b!"Acc".map .byte ++ [.fault (.io (.other 7))]) :=
    delivers_map c ([b!"GET / HTTP/1.1", b!"Host: a"].flatMap (· ++ [13, 10])) _
  have hd2 : Delivers c (trace (Wire.mk [.data b!"HTTP/1.1 200 OK\r\n"])) ([b!"HTTP/1.1 200 OK"].flatMap (· ++ [13, 10])) [] := by
    rw [show trace (Wire.mk [.data b!"HTTP/1.1 200 OK\r\n"]) = ([b!"HTTP/1.1 200 OK"].flatMap (· ++ [13, 10])).map .byte by
      decide +kernel]
    exact delivers_map' c _
  constructor
  · refine C91_request c _ _ (.inr ⟨_, _, ⟨_, [b!"Host: a"], [b!"Host: a"], hl, ⟨_, _, _, _, root_line⟩, by simpa using hh, ?_, ?_, rfl⟩,
      hd1, ?_⟩)
    · exact Folded.line (first := b!"Host: a") (conts := []) (rest := []) (by simp) (by simp) .nil
    · intro l hl
      simp only [List.mem_singleton] at hl
      subst hl
      exact ⟨b!"Host", b!"a", by decide, by decide⟩
    · exact ⟨_, _, delivers_map c _ _, by unfold HasCrLf; decide, .inl ⟨[], by simp [Retried], [], rfl, by simp [Ended]⟩⟩
  · have hst := (statusLine_ok_iff ((validUtf8_iff _).2 hs.2.2) ⟨1, 1⟩ .OK).1 (parseStatusLine_ok .OK)
    obtain ⟨code, hst, _⟩ := hst
    refine C91_response c _ _ (.inr ⟨_, _, ⟨_, [], [], hs, ⟨_, _, _, hst⟩, by simp, .nil, by simp, rfl⟩, hd2, ?_⟩)
    exact ⟨[], [], .nil _, by unfold HasCrLf; decide, .inr ⟨by simp [Ended], rfl⟩⟩

/-! ### C92 -/

section
variable {c : Cfg} {ρ : Type} [LawfulReader ρ] [ZeroReader ρ]

/-- A size line, then what the chunk's data makes of the rest. -/
theorem chunkT_line {size : Bytes} {n : Nat} (hs : UnsignedText 16 size n) (hn : n < 2 ^ 64) (h0 : n ≠ 0) (t : List Ev) :
    chunkT c [] none ((size ++ [13, 10]).map .byte ++ t) = chunkT c [] (some n) t := by
  have hr := unsignedText_rawLine hs
  rw [chunkT_size]
  unfold expectNextT
  rw [innerNextT_line hr.2.1 (delivers_map c _ _), lineOutcome, if_neg (by simp [hr.1]), if_pos ((validUtf8_iff _).2 hr.2.2)]
  dsimp only
  rw [parseSize hs hn]
  dsimp only
  rw [if_neg h0]

/-- Whole chunks, then the rest. -/
theorem chunkT_chunks {chs : List Chunk} (hs : ∀ ch ∈ chs, ch.Sized) (t : List Ev) :
    chunkT c [] none ((chs.map Chunk.bytes).flatten.map .byte ++ t) = (chunkedData chs).map .byte ++ chunkT c [] none t := by
  induction chs with
  | nil => simp [chunkedData]
  | cons ch chs ih =>
    obtain ⟨g1, g2, g3, g4⟩ := hs ch (by simp)
    have : (((ch :: chs).map Chunk.bytes).flatten.map Ev.byte ++ t) = (ch.size ++ [13, 10]).map .byte ++
        (ch.data.map .byte ++ (ch.tail.map .byte ++ ((chs.map Chunk.bytes).flatten.map .byte ++ t))) := by simp [Chunk.bytes]
    rw [this, chunkT_line g1 g3 (by have := List.length_pos_iff.2 g2; omega), chunkT_bytes (by omega), Nat.sub_self,
      chunkT_end, ← g4, readExactT_delivers (delivers_map c ch.tail _)]
    dsimp only
    rw [ih fun x hx => hs x (by simp [hx])]
    simp [chunkedData]

/-- Bodies of a given length, and bodies that end with the connection: a failure of the transport before the end of the
body reaches the reader as it is, after exactly the bytes that had arrived. -/
theorem C92_plain_partial (c : Cfg) (enc : Option Bytes) (henc : enc ≠ some b!"chunked") (n : Option Nat) (u : ρ) (p : Bytes)
    (e : Err) (rest : List Ev) (ht : trace u = p.map .byte ++ .fault e :: rest) (hn : ∀ N, n = some N → p.length < N) :
    FailsAfter (HttpBody.new c enc n u) p e := by
  cases n with
  | none =>
    have hnew : HttpBody.new c enc none u = .ReadTilClose u := by unfold HttpBody.new; rw [if_neg henc]
    rw [hnew]
    exact failsAfter_of_trace (t := rest) ht
  | some N =>
    rw [limited_new c enc henc]
    have hlt := hn N rfl
    obtain ⟨k, hk⟩ : ∃ k, N - p.length = k + 1 := ⟨N - p.length - 1, by omega⟩
    apply failsAfter_of_trace (t := limitTrace (k + 1) rest)
    rw [HttpBody.trace_limited]
    dsimp only
    rw [ht, limitTrace_append _ _ _ (by omega), hk, limitTrace_fault]

/-- Chunked bodies: a failure within the data of a chunk reaches the reader as it is, after exactly the bytes that had
arrived. -/
theorem C92_data_partial (c : Cfg) (n : Option Nat) (u : ρ) (done : List Chunk) (size : Bytes) (N : Nat) (q : Bytes) (e : Err)
    (rest : List Ev) (hs : ∀ ch ∈ done, ch.Sized) (hsz : UnsignedText 16 size N) (hN : N < 2 ^ 64) (hq : q.length < N)
    (ht : trace u = ((done.map Chunk.bytes).flatten ++ size ++ [13, 10] ++ q).map .byte ++ .fault e :: rest) :
    FailsAfter (HttpBody.new c (some b!"chunked") n u) (chunkedData done ++ q) e := by
  rw [chunked_new]
  apply failsAfter_of_trace (t := [])
  rw [HttpBody.trace_chunked, HttpChunkedBody.trace_new, ht]
  have : ((done.map Chunk.bytes).flatten ++ size ++ [13, 10] ++ q).map Ev.byte ++ .fault e :: rest =
      (done.map Chunk.bytes).flatten.map .byte ++ ((size ++ [13, 10]).map .byte ++ (q.map .byte ++ .fault e :: rest)) := by simp
  rw [this, chunkT_chunks hs, chunkT_line hsz hN (by omega), chunkT_bytes (by omega)]
  obtain ⟨k, hk⟩ : ∃ k, N - q.length = k + 1 := ⟨N - q.length - 1, by omega⟩
  rw [hk, chunkT]
  simp

/-- ... and so does a failure (other than an interrupted call, which is repeated) in the two bytes after the data. -/
theorem C92_tail_partial (c : Cfg) (n : Option Nat) (u : ρ) (done : List Chunk) (ch : Chunk) (x : Bytes) (e : Err)
    (rest : List Ev) (hs : ∀ ch ∈ done, ch.Sized) (hc : ch.Sized) (hx : x.length < 2) (he : ¬ Retried c e)
    (ht : trace u = ((done.map Chunk.bytes).flatten ++ ch.size ++ [13, 10] ++ ch.data ++ x).map .byte ++ .fault e :: rest) :
    FailsAfter (HttpBody.new c (some b!"chunked") n u) (chunkedData done ++ ch.data) e := by
  rw [chunked_new]
  apply failsAfter_of_trace (t := [])
  rw [HttpBody.trace_chunked, HttpChunkedBody.trace_new, ht]
  obtain ⟨g1, g2, g3, g4⟩ := hc
  have : ((done.map Chunk.bytes).flatten ++ ch.size ++ [13, 10] ++ ch.data ++ x).map Ev.byte ++ .fault e :: rest =
      (done.map Chunk.bytes).flatten.map .byte ++ ((ch.size ++ [13, 10]).map .byte ++ (ch.data.map .byte ++
        (x.map .byte ++ .fault e :: rest))) := by simp
  rw [this, chunkT_chunks hs, chunkT_line g1 g3 (by have := List.length_pos_iff.2 g2; omega), chunkT_bytes (by omega),
    Nat.sub_self, chunkT_end, readExactT_fails (delivers_map c x (.fault e :: rest)) hx ⟨he, [], rfl, by simp [Ended]⟩]
  simp

/-- A failure in a size line: without `std` it reaches the reader as it is; with `std` the reader gets an error of kind
`Other`, whatever the transport had said (`src/protocol.rs:86`, `src/error.rs:70-75`). -/
theorem C92_size_partial (c : Cfg) (n : Option Nat) (u : ρ) (done : List Chunk) (part : Bytes) (e : Err)
    (rest : List Ev) (hs : ∀ ch ∈ done, ch.Sized) (hx : ¬ HasCrLf part) (he : ¬ Retried c e)
    (ht : trace u = ((done.map Chunk.bytes).flatten ++ part).map .byte ++ .fault e :: rest) :
    FailsAfter (HttpBody.new c (some b!"chunked") n u) (chunkedData done) (if c.std then .io (.other 0) else e) := by
  rw [chunked_new]
  apply failsAfter_of_trace (t := [])
  rw [HttpBody.trace_chunked, HttpChunkedBody.trace_new, ht]
  have : ((done.map Chunk.bytes).flatten ++ part).map Ev.byte ++ .fault e :: rest =
      (done.map Chunk.bytes).flatten.map .byte ++ (part.map .byte ++ .fault e :: rest) := by simp
  rw [this, chunkT_chunks hs, chunkT_size]
  have hb := innerNextT_breaks (c := c) ⟨part, _, delivers_map c part (.fault e :: rest), hx, .inl ⟨rest, he, [], rfl, by simp [Ended]⟩⟩
  have : (expectNextT c (part.map .byte ++ .fault e :: rest)).1 = .error e := by
    unfold expectNextT
    rcases h2 : innerNextT c [] (part.map .byte ++ .fault e :: rest) with ⟨r, t⟩
    rw [h2] at hb
    dsimp only at hb
    subst hb; rw [h2]
  rcases h2 : expectNextT c (part.map .byte ++ .fault e :: rest) with ⟨r, t⟩
  rw [h2] at this
  dsimp only at this
  subst this
  rw [h2]; rfl

theorem expectNextT_faults {t : List Ev} {l : Except Err Bytes} {t' : List Ev} (h : expectNextT c t = (l, t')) :
    (∀ e, .fault e ∈ t' → .fault e ∈ t) ∧ (∀ e, l = .error e → .fault e ∈ t ∨ ParseErr e) := by
  have := expectNext_trace c (⟨t⟩ : Evs)
  rw [show trace (⟨t⟩ : Evs) = t from rfl, h] at this
  rcases he : expectNext c (⟨t⟩ : Evs) with ⟨r, s'⟩
  rw [he] at this
  simp only [Prod.mk.injEq] at this
  have hf := expectNext_faults he
  rw [this.1, this.2] at hf
  exact hf

theorem readExactT_faults {n : Nat} {t : List Ev} {r : Except Err Bytes} {t' : List Ev} (h : readExactT c n t = (r, t')) :
    (∀ e, .fault e ∈ t' → .fault e ∈ t) ∧ (∀ e, r = .error e → .fault e ∈ t ∨ e = c.eofErr) := by
  fun_induction readExactT c n t generalizing r t' with
  | case1 t => simp only [Prod.mk.injEq] at h; rw [← h.1, ← h.2]; simp
  | case2 => simp only [Prod.mk.injEq] at h; rw [← h.1, ← h.2]; simp
  | case3 n b t more t1 hr ih =>
    simp only [Prod.mk.injEq] at h
    have := ih hr
    rw [← h.1, ← h.2]
    exact ⟨fun e he => by simp [this.1 e he], by simp⟩
  | case4 n b t e t1 hr ih =>
    simp only [Prod.mk.injEq] at h
    have := ih hr
    rw [← h.1, ← h.2]
    refine ⟨fun e he => by simp [this.1 e he], fun e' he => ?_⟩
    rcases this.2 e' he with h | h
    · left; simp [h]
    · exact .inr h
  | case5 n e t hre ih =>
    have := ih h
    refine ⟨fun e he => by simp [this.1 e he], fun e' he => ?_⟩
    rcases this.2 e' he with h | h
    · left; simp [h]
    · exact .inr h
  | case6 n e t hre =>
    simp only [Prod.mk.injEq] at h
    rw [← h.1, ← h.2]
    refine ⟨fun e he => by simp [he], fun e' he => ?_⟩
    simp only [Except.error.injEq] at he
    left; simp [he]

theorem chunkT_faults {m : Option Nat} {after t : List Ev} {e : Err} (h : .fault e ∈ chunkT c after m t) :
    .fault e ∈ t ∨ .fault e ∈ after ∨ (∃ e', (.fault e' ∈ t ∨ ParseErr e') ∧ e = c.toIo e') ∨ e = c.eofErr := by
  fun_induction chunkT c after m t with
  | case1 after t e1 t' h1 =>
    simp only [List.mem_singleton, Ev.fault.injEq] at h
    exact .inr (.inr (.inl ⟨e1, (expectNextT_faults h1).2 _ rfl, h⟩))
  | case2 =>
    simp only [List.mem_singleton, Ev.fault.injEq] at h
    exact .inr (.inr (.inl ⟨_, .inr (.inr (.inl rfl)), h⟩))
  | case3 => simp at h
  | case4 after t l t' h1 size hs h0 ih =>
    rcases ih h with h | h | ⟨e', h2 | h2, h3⟩ | h
    · exact .inl ((expectNextT_faults h1).1 _ h)
    · simp at h
    · exact .inr (.inr (.inl ⟨e', .inl ((expectNextT_faults h1).1 _ h2), h3⟩))
    · exact .inr (.inr (.inl ⟨e', .inr h2, h3⟩))
    · exact .inr (.inr (.inr h))
  | case5 after t e1 t' h1 =>
    simp only [List.mem_cons, Ev.fault.injEq] at h
    rcases h with rfl | h
    · rcases (readExactT_faults h1).2 _ rfl with h | h
      · exact .inl h
      · exact .inr (.inr (.inr h))
    · exact .inr (.inl h)
  | case6 after t _ t' h1 ih =>
    rcases ih h with h | h | ⟨e', h2 | h2, h3⟩ | h
    · exact .inl ((readExactT_faults h1).1 _ h)
    · simp at h
    · exact .inr (.inr (.inl ⟨e', .inl ((readExactT_faults h1).1 _ h2), h3⟩))
    · exact .inr (.inr (.inl ⟨e', .inr h2, h3⟩))
    · exact .inr (.inr (.inr h))
  | case7 =>
    simp only [List.mem_cons, Ev.fault.injEq] at h
    rcases h with rfl | h
    · exact .inr (.inr (.inr rfl))
    · exact .inr (.inl h)
  | case8 after k b t ih =>
    simp only [List.mem_cons, reduceCtorEq, false_or] at h
    rcases ih h with h | h | ⟨e', h2 | h2, h3⟩ | h
    · left; simp [h]
    · exact .inr (.inl h)
    · exact .inr (.inr (.inl ⟨e', .inl (by simp [h2]), h3⟩))
    · exact .inr (.inr (.inl ⟨e', .inr h2, h3⟩))
    · exact .inr (.inr (.inr h))
  | case9 =>
    simp only [List.mem_cons, Ev.fault.injEq] at h
    rcases h with rfl | h
    · left; simp
    · exact .inr (.inl h)

omit [ZeroReader ρ] in
theorem mem_seen {rs : List (Except Err Bytes)} {e : Err} (h : .error e ∈ rs) : .fault e ∈ seen rs := by
  induction rs with
  | nil => simp at h
  | cons r rs ih =>
    rcases List.mem_cons.1 h with rfl | h'
    · simp [seen]
    · cases r <;> simp [seen, ih h']

theorem limitTrace_mem {k : Nat} {t : List Ev} {ev : Ev} (h : ev ∈ limitTrace k t) : ev ∈ t := by
  fun_induction limitTrace k t <;> simp_all <;> grind

/-- Where the errors that a reader of a body sees come from: each is a failure of the transport as it was, or the body is
chunked and the error is the crate's own. Without `std` it then says what is wrong with the bytes; with `std` it is of
kind `Other` or says that the stream ended too soon. -/
theorem C92_sources (c : Cfg) (enc : Option Bytes) (n : Option Nat) (u : ρ) (sizes : List Nat) (hp : Positive sizes)
    (e : Err) (h : .error e ∈ (calls (HttpBody.new c enc n u) sizes).1) :
    .fault e ∈ trace u ∨ (enc = some b!"chunked" ∧
      ((c.std = true ∧ (e = .io (.other 0) ∨ e = .io .unexpectedEof)) ∨ (c.std = false ∧ Malformed e))) := by
  have h1 := (calls_seen (HttpBody.new c enc n u) hp).1
  have h2 : .fault e ∈ trace (HttpBody.new c enc n u) := by
    rw [h1]; exact List.mem_append_left _ (mem_seen h)
  by_cases henc : enc = some b!"chunked"
  · subst henc
    rw [chunked_new, HttpBody.trace_chunked, HttpChunkedBody.trace_new] at h2
    rcases chunkT_faults h2 with h | h | ⟨e', h3, h4⟩ | h
    · exact .inl h
    · simp at h
    · unfold Cfg.toIo at h4
      by_cases hs : c.std = true
      · rw [if_pos hs] at h4; exact .inr ⟨rfl, .inl ⟨hs, .inl h4⟩⟩
      · rw [if_neg hs] at h4
        subst h4
        rcases h3 with h3 | h3
        · exact .inl h3
        · refine .inr ⟨rfl, .inr ⟨by simpa using hs, ?_⟩⟩
          rcases h3 with rfl | rfl | rfl | rfl
          · exact .parse
          · exact .parseInt
          · exact .utf8
          · exact .eof
    · unfold Cfg.eofErr at h
      by_cases hs : c.std = true
      · rw [if_pos hs] at h; exact .inr ⟨rfl, .inl ⟨hs, .inr h⟩⟩
      · rw [if_neg hs] at h; rw [h]; exact .inr ⟨rfl, .inr ⟨by simpa using hs, .eof⟩⟩
  · left
    cases n with
    | none =>
      have hnew : HttpBody.new c enc none u = .ReadTilClose u := by unfold HttpBody.new; rw [if_neg henc]
      rw [hnew, HttpBody.trace_tilClose] at h2; exact h2
    | some N =>
      rw [limited_new c enc henc, HttpBody.trace_limited] at h2
      exact limitTrace_mem h2

end

/-- A timeout. -/
abbrev timedOut : Err := .io (.other 7)

/-- The property as stated: a failure of the transport, wherever it strikes in a body, reaches the reader as it is. False
with `std`: a timeout while a size line is awaited is reported with kind `Other`, so that the reader cannot tell it from a
malformed size. (`C92_size_partial` says what happens in general.) -/
theorem C92_false : ¬ ∀ (c : Cfg) (n : Option Nat) (u : Wire) (done : List Chunk) (part : Bytes) (e : Err) (rest : List Ev),
    (∀ ch ∈ done, ch.Sized) → ¬ HasCrLf part → ¬ Retried c e →
    trace u = ((done.map Chunk.bytes).flatten ++ part).map .byte ++ .fault e :: rest →
    FailsAfter (HttpBody.new c (some b!"chunked") n u) (chunkedData done) e := by
  intro h
  have h1 := h ⟨true⟩ none (Wire.mk [.fault timedOut]) [] [] timedOut [] (by simp) (by unfold HasCrLf; decide)
    (by simp [Retried]) rfl [1] (by simp [Positive])
  have h2 : (calls (HttpBody.new ⟨true⟩ (some b!"chunked") none (Wire.mk [.fault timedOut])) [1]).1 = [.error (.io (.other 0))] := by
    decide +kernel
  rw [h2] at h1
  rcases h1 with ⟨p, _, _, h3⟩ | ⟨rs, later, h3, h4⟩
  · simp [chunkedData] at h3
  · cases rs with
    | nil => simp at h3
    | cons r rs => simp at h3

/-- Timeouts in a body of five bytes after two of them; in the second chunk's data; after the data; in a size line. -/
example (c : Cfg) :
    FailsAfter (HttpBody.new c none (some 5) (Wire.mk [.data b!"ab", .fault timedOut])) b!"ab" timedOut ∧
    FailsAfter (HttpBody.new c (some b!"chunked") none (Wire.mk [.data b!"2\r\nab\r\n3\r\nc", .fault timedOut])) b!"abc" timedOut ∧
    FailsAfter (HttpBody.new c (some b!"chunked") none (Wire.mk [.data b!"2\r\nab\r", .fault timedOut])) b!"ab" timedOut ∧
    FailsAfter (HttpBody.new c (some b!"chunked") none (Wire.mk [.data b!"2\r\nab\r\n3\r", .fault timedOut])) b!"ab"
      (if c.std then .io (.other 0) else timedOut) := by
  have h2 : UnsignedText 16 b!"2" 2 := .inl (.one (.dec 2 (by decide) (by decide)))
  have h3 : UnsignedText 16 b!"3" 3 := .inl (.one (.dec 3 (by decide) (by decide)))
  have hc : Chunk.Sized ⟨b!"2", b!"ab", b!"\r\n"⟩ := ⟨h2, by decide, by decide, rfl⟩
  have hr : ¬ Retried c timedOut := by simp [Retried]
  refine ⟨C92_plain_partial c none (by simp) _ _ _ _ [] rfl (by simp), ?_, ?_, ?_⟩
  · exact C92_data_partial c none _ [⟨b!"2", b!"ab", b!"\r\n"⟩] b!"3" 3 b!"c" timedOut [] (by simpa using hc) h3 (by decide) (by decide) rfl
  · exact C92_tail_partial c none _ [] ⟨b!"2", b!"ab", b!"\r\n"⟩ b!"\r" timedOut [] (by simp) hc (by decide) hr rfl
  · exact C92_size_partial c none _ [⟨b!"2", b!"ab", b!"\r\n"⟩] b!"3\r" timedOut [] (by simpa using hc) (by unfold HasCrLf; decide) hr rfl

end HttpIo
