import Verif.Lemmas.Stream

/-!
Message bodies keep the `Read` contract for non-empty buffers: the trace of a body is the decoded stream.
-/

namespace HttpIo
open Spec

/-- `expectNext` on events. -/
def expectNextT (c : Cfg) (t : List Ev) : Except Err Bytes × List Ev :=
  match innerNextT c [] t with
  | (.error e, t') => (.error e, t')
  | (.ok none, t') => (.error .unexpectedEof, t')
  | (.ok (some l), t') => (.ok l, t')

theorem expectNext_trace {σ : Type} [LawfulReader σ] (c : Cfg) (s : σ) :
    ((expectNext c s).1, trace (expectNext c s).2) = expectNextT c (trace s) := by
  have h := innerNextLoop_trace c [] s
  unfold expectNext expectNextT innerNext
  rw [← h]
  rcases innerNextLoop c [] s with ⟨r, s'⟩
  rcases r with e | _ | l <;> rfl

theorem expectNextT_lt {c : Cfg} {t t' : List Ev} {l : Bytes} (h : expectNextT c t = (.ok l, t')) :
    t'.length < t.length := by
  have hs := expectNext_trace c (⟨t⟩ : Evs)
  rw [show trace (⟨t⟩ : Evs) = t from rfl, h] at hs
  rcases he : expectNext c (⟨t⟩ : Evs) with ⟨r, s'⟩
  rw [he] at hs
  simp only [Prod.mk.injEq] at hs
  rw [hs.1] at he
  have := expectNext_ok_lt he
  rw [hs.2] at this; exact this

theorem readExactT_lt {c : Cfg} {t t' : List Ev} {n : Nat} {bs : Bytes} (hn : 0 < n)
    (h : readExactT c n t = (.ok bs, t')) : t'.length < t.length := by
  have hs := readExact_trace c (⟨t⟩ : Evs) n
  rw [show trace (⟨t⟩ : Evs) = t from rfl, h] at hs
  rcases he : readExact c (⟨t⟩ : Evs) n with ⟨r, s'⟩
  rw [he] at hs
  simp only [Prod.mk.injEq] at hs
  rw [hs.1] at he
  have := readExact_lt hn he
  rw [hs.2] at this; exact this

/-- What a chunked reader delivers from the events `t` of its stream: at a size line (`none`) or inside a chunk with
`some k` bytes left. `after` is what follows a failure (nothing: the state is dropped). -/
def chunkT (c : Cfg) (after : List Ev) : Option Nat → List Ev → List Ev
  | none, t =>
    match h : expectNextT c t with
    | (.error e, _) => [.fault (c.toIo e)]
    | (.ok l, t') =>
      match fromStrRadix 16 u64Max l with
      | none => [.fault (c.toIo .parseInt)]
      | some size => if size = 0 then [] else chunkT c [] (some size) t'
  | some 0, t =>
    match h : readExactT c 2 t with
    | (.error e, _) => .fault e :: after
    | (.ok _, t') => chunkT c [] none t'
  | some (_ + 1), [] => .fault c.eofErr :: after
  | some (k + 1), .byte b :: t => .byte b :: chunkT c after (some k) t
  | some (_ + 1), .fault e :: _ => .fault e :: after
termination_by _ t => t.length
decreasing_by
  · exact expectNextT_lt h
  · exact readExactT_lt (by omega) h
  · simp

theorem chunkT_size {c : Cfg} {after t : List Ev} :
    chunkT c after none t = match expectNextT c t with
    | (.error e, _) => [.fault (c.toIo e)]
    | (.ok l, t') =>
      match fromStrRadix 16 u64Max l with
      | none => [.fault (c.toIo .parseInt)]
      | some size => if size = 0 then [] else chunkT c [] (some size) t' := by
  rw [chunkT]; split <;> simp_all

theorem chunkT_end {c : Cfg} {after t : List Ev} :
    chunkT c after (some 0) t = match readExactT c 2 t with
    | (.error e, _) => .fault e :: after
    | (.ok _, t') => chunkT c [] none t' := by
  rw [chunkT]; split <;> simp_all

theorem chunkT_bytes {c : Cfg} {after t : List Ev} {k : Nat} {bs : Bytes} (h : bs.length ≤ k) :
    chunkT c after (some k) (bs.map .byte ++ t) = bs.map .byte ++ chunkT c after (some (k - bs.length)) t := by
  induction bs generalizing k with
  | nil => simp
  | cons b bs ih =>
    cases k with
    | zero => simp at h
    | succ k =>
      simp only [List.map_cons, List.cons_append, List.length_cons, Nat.add_sub_add_right]
      rw [chunkT, ih (by simpa using h)]

section
variable {c : Cfg} {ρ : Type} [LawfulReader ρ]

/-- The pending events of a chunked body. -/
def HttpChunkedBody.traceImpl (b : HttpChunkedBody c ρ) : List Ev :=
  let rest := match b.stream with
    | some s => chunkT c [] none (trace s)
    | none => []
  match b.chunk with
  | some ch => chunkT c rest (some ch.limit) (trace ch.inner)
  | none => rest

theorem HttpBodyChunk.new_trace (s : ρ) :
    chunkT c [] none (trace s) = match HttpBodyChunk.new c s with
      | (.error e, _) => [.fault (c.toIo e)]
      | (.ok none, _) => []
      | (.ok (some ch), _) => chunkT c [] (some ch.limit) (trace ch.inner) := by
  rw [chunkT_size, ← expectNext_trace]
  unfold HttpBodyChunk.new
  rcases he : expectNext c s with ⟨r, s'⟩
  cases r with
  | error e => rfl
  | ok l =>
    dsimp only
    cases hf : fromStrRadix 16 u64Max l with
    | none => rfl
    | some n =>
      dsimp only
      by_cases h0 : n = 0
      · rw [if_pos h0, if_pos h0]
      · rw [if_neg h0, if_neg h0]

variable [ZeroReader ρ]

theorem HttpChunkedBody.read_step (b : HttpChunkedBody c ρ) (n : Nat) (hn : 0 < n) :
    ReadStep b.traceImpl n (HttpChunkedBody.readImpl b n).1 (HttpChunkedBody.readImpl b n).2.traceImpl := by
  fun_induction HttpChunkedBody.readImpl b n with
  | case1 b chunk hc e chunk' hr =>
    -- the transport failed inside the chunk
    have hs := LawfulReader.read_step chunk n hn
    rw [hr] at hs
    have he := hs.error_inv
    have hlim : chunk.limit ≠ 0 := by
      intro h0
      have : trace chunk = limitTrace chunk.limit (trace chunk.inner) := rfl
      rw [this, h0, limitTrace_zero] at he
      simp at he
    obtain ⟨k, hk⟩ : ∃ k, chunk.limit = k + 1 := ⟨chunk.limit - 1, by omega⟩
    have ht : trace chunk = limitTrace (k + 1) (trace chunk.inner) := by rw [← hk]; rfl
    rw [ht] at he
    unfold HttpChunkedBody.traceImpl
    simp only [hc, hk]
    cases hi : trace chunk.inner with
    | nil => rw [hi] at he; simp [limitTrace] at he
    | cons ev t =>
      rw [hi] at he
      cases ev with
      | byte x => simp [limitTrace] at he
      | fault e' =>
        simp only [limitTrace, List.cons.injEq, Ev.fault.injEq] at he
        rw [chunkT, he.1]
        exact .fault _ _ _
  | case2 b chunk hc chunk' hr e s he =>
    -- the chunk is over, its two trailing bytes cannot be read
    have hs := LawfulReader.read_step chunk n hn
    rw [hr] at hs
    have ht : chunkT c (match b.stream with | some s => chunkT c [] none (trace s) | none => [])
        (some chunk.limit) (trace chunk.inner) = .fault e ::
          (match b.stream with | some s => chunkT c [] none (trace s) | none => []) := by
      have hx := readExact_trace c chunk'.inner 2
      rw [he] at hx
      rcases Nat.eq_zero_or_pos chunk.limit with h0 | hpos
      · have hci : chunk'.inner = chunk.inner := by
          rw [Take.read_def] at hr; unfold Take.readImpl at hr; rw [if_pos h0] at hr
          simp only [Prod.mk.injEq] at hr; rw [hr.2]
        rw [h0, chunkT_end, ← hci, ← hx]
      · have hr' := hr
        rw [Take.read_def] at hr'; unfold Take.readImpl at hr'; rw [if_neg (by omega)] at hr'
        rcases hin : read chunk.inner (min n chunk.limit) with ⟨res, i⟩
        rw [hin] at hr'
        cases res with
        | error e => simp at hr'
        | ok bs =>
          simp only [Prod.mk.injEq, Except.ok.injEq] at hr'
          obtain ⟨rfl, rfl⟩ := hr'
          have hst := LawfulReader.read_step chunk.inner (min n chunk.limit) (by omega)
          rw [hin] at hst
          rcases hst.ok_inv with ⟨_, h2, h3⟩ | ⟨h1, _⟩
          · obtain ⟨k, hk⟩ : ∃ k, chunk.limit = k + 1 := ⟨chunk.limit - 1, by omega⟩
            dsimp only at h2 h3 hx
            rw [h3] at hx
            have : readExactT c 2 [] = (.error c.eofErr, []) := rfl
            rw [this] at hx
            simp only [Prod.mk.injEq, Except.error.injEq] at hx
            rw [hk, h2, chunkT, hx.1]
          · exact absurd rfl h1
    unfold HttpChunkedBody.traceImpl
    simp only [hc]
    rw [ht]
    exact .fault _ _ _
  | case3 b chunk hc chunk' hr bs s he ih =>
    -- the chunk is over, on to the next size line
    have hx := readExact_trace c chunk'.inner 2
    rw [he] at hx
    have heq : b.traceImpl = HttpChunkedBody.traceImpl (c := c) { b with chunk := none, stream := some s } := by
      unfold HttpChunkedBody.traceImpl
      simp only [hc]
      rcases Nat.eq_zero_or_pos chunk.limit with h0 | hpos
      · have hci : chunk'.inner = chunk.inner := by
          rw [Take.read_def] at hr; unfold Take.readImpl at hr; rw [if_pos h0] at hr
          simp only [Prod.mk.injEq] at hr; rw [hr.2]
        rw [h0, chunkT_end, ← hci, ← hx]
      · exfalso
        have hr' := hr
        rw [Take.read_def] at hr'; unfold Take.readImpl at hr'; rw [if_neg (by omega)] at hr'
        rcases hin : read chunk.inner (min n chunk.limit) with ⟨res, i⟩
        rw [hin] at hr'
        cases res with
        | error e => simp at hr'
        | ok bs =>
          simp only [Prod.mk.injEq, Except.ok.injEq] at hr'
          obtain ⟨rfl, rfl⟩ := hr'
          have hst := LawfulReader.read_step chunk.inner (min n chunk.limit) (by omega)
          rw [hin] at hst
          rcases hst.ok_inv with ⟨_, h2, h3⟩ | ⟨h1, _⟩
          · dsimp only at h3 hx
            rw [h3] at hx
            have : readExactT c 2 [] = (.error c.eofErr, []) := rfl
            rw [this] at hx
            simp at hx
          · exact absurd rfl h1
    rw [heq]; exact ih
  | case4 b chunk hc x xs chunk' hr =>
    have hs := LawfulReader.read_step chunk n hn
    rw [hr] at hs
    rcases hs.ok_inv with ⟨h1, _⟩ | ⟨_, h2, h3⟩
    · simp at h1
    · have hr' := hr
      rw [Take.read_def] at hr'; unfold Take.readImpl at hr'
      split at hr'
      · simp at hr'
      · rename_i hpos
        rcases hin : read chunk.inner (min n chunk.limit) with ⟨res, i⟩
        rw [hin] at hr'
        cases res with
        | error e => simp at hr'
        | ok bs =>
          simp only [Prod.mk.injEq, Except.ok.injEq] at hr'
          obtain ⟨rfl, rfl⟩ := hr'
          have hst := LawfulReader.read_step chunk.inner (min n chunk.limit) (by omega)
          rw [hin] at hst
          have hlen := hst.length_le
          have hsp := hst.split
          dsimp only at hsp
          unfold HttpChunkedBody.traceImpl
          simp only [hc]
          rw [hsp, chunkT_bytes (by omega)]
          exact .data _ _ _ (by simp) (by omega)
  | case5 b hc stream hst e s hn' =>
    have := HttpBodyChunk.new_trace (c := c) stream
    rw [hn'] at this
    unfold HttpChunkedBody.traceImpl
    simp only [hc, hst, this]
    exact .fault _ _ _
  | case6 b hc stream hst chunk s hn' ih =>
    have := HttpBodyChunk.new_trace (c := c) stream
    rw [hn'] at this
    have heq : b.traceImpl = HttpChunkedBody.traceImpl (c := c) { b with stream := none, chunk := some chunk } := by
      unfold HttpChunkedBody.traceImpl
      simp only [hc, hst, this]
    rw [heq]; exact ih
  | case7 b hc stream hst s hn' =>
    have := HttpBodyChunk.new_trace (c := c) stream
    rw [hn'] at this
    unfold HttpChunkedBody.traceImpl
    simp only [hc, hst, this]
    exact .eof _
  | case8 b hc hst =>
    unfold HttpChunkedBody.traceImpl
    simp only [hc, hst]
    exact .eof _

instance : LawfulReader (HttpChunkedBody c ρ) where
  trace := HttpChunkedBody.traceImpl
  read_step := HttpChunkedBody.read_step

/-- The pending events of a body. -/
def HttpBody.traceImpl (b : HttpBody c ρ) : List Ev :=
  match b with
  | .Chunked i => trace i
  | .Limited t => trace t
  | .ReadTilClose r => trace r

instance : LawfulReader (HttpBody c ρ) where
  trace := HttpBody.traceImpl
  read_step b n hn := by
    show ReadStep _ n (HttpBody.readImpl b n).1 (HttpBody.traceImpl (HttpBody.readImpl b n).2)
    unfold HttpBody.readImpl
    cases b with
    | Chunked i => exact LawfulReader.read_step i n hn
    | Limited i => exact LawfulReader.read_step i n hn
    | ReadTilClose i => exact LawfulReader.read_step i n hn

theorem HttpChunkedBody.trace_new (n : Option Nat) (s : ρ) :
    trace (HttpChunkedBody.new c n s) = chunkT c [] none (trace s) := rfl
theorem HttpBody.trace_chunked (i : HttpChunkedBody c ρ) : trace (HttpBody.Chunked i) = trace i := rfl
theorem HttpBody.trace_limited (t : Take ρ) :
    trace (HttpBody.Limited t : HttpBody c ρ) = limitTrace t.limit (trace t.inner) := rfl
theorem HttpBody.trace_tilClose (r : ρ) : trace (HttpBody.ReadTilClose r : HttpBody c ρ) = trace r := rfl
theorem HttpBody.read_def (b : HttpBody c ρ) (n : Nat) : read b n = HttpBody.readImpl b n := rfl

end

end HttpIo
