import Verif.Model.CrLf

/-!
Message bodies: `src/protocol.rs:25-98`, `:135-190`.
The type parameter `ρ` is the buffered stream (`HttpReadTilCloseBody<S> = io::BufReader<S>`, `:135`).
-/

namespace HttpIo

section
variable {ρ : Type} [LawfulReader ρ]

theorem readExact_lt {c : Cfg} {s s' : ρ} {n : Nat} {bs : Bytes} (hn : 0 < n)
    (h : readExact c s n = (.ok bs, s')) : (trace s').length < (trace s).length := by
  have main : ∀ (n : Nat) (s s' : ρ) (bs : Bytes), readExact c s n = (.ok bs, s') →
      (trace s').length ≤ (trace s).length ∧ (0 < n → (trace s').length < (trace s).length) := by
    intro n s
    fun_induction readExact c s n with
    | case1 s => intro s' bs h; simp only [Prod.mk.injEq] at h; rw [h.2]; simp
    | case2 => intro s' bs h; simp at h
    | case3 s n hn b bs s1 hr more s2 hrec ih =>
      intro s' bs' h
      simp only [Prod.mk.injEq] at h
      have h1 := trace_of_data (by omega) (by simp) hr
      have h2 := (ih _ _ hrec).1
      rw [h1, ← h.2]; simp; omega
    | case4 => intro s' bs h; simp at h
    | case5 s n hn e s1 hr hret ih =>
      intro s' bs' h
      have h1 := trace_lt_of_error (by omega) hr
      have h2 := (ih _ _ h).1
      omega
    | case6 => intro s' bs h; simp at h
  exact (main n s s' bs h).2 hn

/-- `HttpBodyChunk` is `Take` over the stream (`src/protocol.rs:25-27`, `:65-69`). This is its constructor
(`:46-58`): read a size line; `None` for size zero. On an error the stream is dropped; the model returns it so
that the position of the underlying transport stays known. -/
def HttpBodyChunk.new (c : Cfg) (stream : ρ) : Except Err (Option (Take ρ)) × ρ :=
  match expectNext c stream with
  | (.error e, s') => (.error e, s')
  | (.ok sizeStr, s') =>
    match fromStrRadix 16 u64Max sizeStr with
    | none => (.error .parseInt, s')
    | some size => if size = 0 then (.ok none, s') else (.ok (some ⟨s', size⟩), s')

theorem HttpBodyChunk.new_lt {c : Cfg} {s s' : ρ} {ch : Take ρ}
    (h : HttpBodyChunk.new c s = (.ok (some ch), s')) : (trace ch.inner).length < (trace s).length := by
  unfold HttpBodyChunk.new at h
  split at h
  · simp at h
  · rename_i l s1 he
    split at h
    · simp at h
    · split at h
      · simp at h
      · simp only [Prod.mk.injEq, Except.ok.injEq, Option.some.injEq] at h
        rw [← h.1]; exact expectNext_ok_lt he

end

/-- `src/protocol.rs:29-33`. `lost` is a ghost: the stream at the moment the code dropped it (after an error or
after the terminating chunk); the Rust value has no such field. -/
structure HttpChunkedBody (c : Cfg) (ρ : Type) where
  contentLength : Option Nat
  stream : Option ρ
  chunk : Option (Take ρ)
  lost : Option ρ

/-- `src/protocol.rs:36-42`. -/
def HttpChunkedBody.new (c : Cfg) {ρ : Type} (contentLength : Option Nat) (stream : ρ) : HttpChunkedBody c ρ :=
  ⟨contentLength, some stream, none, none⟩

/-- Events still to come on the stream the body holds (termination measure of `read`). -/
def HttpChunkedBody.pending {c : Cfg} {ρ : Type} [LawfulReader ρ] (b : HttpChunkedBody c ρ) : Nat :=
  match b.chunk with
  | some ch => (trace ch.inner).length
  | none => match b.stream with
    | some s => (trace s).length
    | none => 0

theorem Take.read_le {ρ : Type} [LawfulReader ρ] [ZeroReader ρ] {t t' : Take ρ} {n : Nat}
    {bs : Bytes} (h : read t n = (.ok bs, t')) : (trace t'.inner).length ≤ (trace t.inner).length := by
  rw [Take.read_def] at h
  unfold Take.readImpl at h
  split at h
  · simp only [Prod.mk.injEq] at h; rw [← h.2]; exact Nat.le_refl _
  · rcases hr : read t.inner (min n t.limit) with ⟨res, i⟩
    rw [hr] at h
    cases res with
    | error e => simp at h
    | ok x =>
      simp only [Prod.mk.injEq] at h
      rw [← h.2]
      dsimp only
      rcases Nat.eq_zero_or_pos (min n t.limit) with h0 | hpos
      · rw [h0] at hr
        have := ZeroReader.read_zero t.inner
        rw [hr] at this
        rcases this with ⟨_, h2⟩ | ⟨e, tl, _, h2, _⟩
        · rw [h2]; exact Nat.le_refl _
        · simp at h2
      · have := LawfulReader.read_step t.inner _ hpos
        rw [hr] at this
        have := this.split
        dsimp only at this
        rw [this]; simp

/-- `src/protocol.rs:71-98`. The recursive calls `self.read(buffer)` are the recursive calls here. The buffer
`b` of two bytes (`:77-78`) is read and not looked at. Errors of `HttpBodyChunk::new` are converted to
`io::Error` by `?` (`:86`); the others already are. -/
def HttpChunkedBody.readImpl {c : Cfg} {ρ : Type} [LawfulReader ρ] [ZeroReader ρ]
    (b : HttpChunkedBody c ρ) (n : Nat) : Except Err Bytes × HttpChunkedBody c ρ :=
  match hc : b.chunk with
  | some chunk =>
    match hr : read chunk n with
    | (.error e, chunk') => (.error e, { b with chunk := none, lost := some chunk'.inner })
    | (.ok [], chunk') =>
      match he : readExact c chunk'.inner 2 with
      | (.error e, s) => (.error e, { b with chunk := none, lost := some s })
      | (.ok _, s) => HttpChunkedBody.readImpl { b with chunk := none, stream := some s } n
    | (.ok (x :: xs), chunk') => (.ok (x :: xs), { b with chunk := some chunk' })
  | none =>
    match hs : b.stream with
    | some stream =>
      match hn : HttpBodyChunk.new c stream with
      | (.error e, s) => (.error (c.toIo e), { b with stream := none, lost := some s })
      | (.ok (some chunk), _) => HttpChunkedBody.readImpl { b with stream := none, chunk := some chunk } n
      | (.ok none, s) => (.ok [], { b with stream := none, lost := some s })
    | none => (.ok [], b)
termination_by b.pending
decreasing_by
  · simp only [HttpChunkedBody.pending, hc]
    have h1 := readExact_lt (by omega) he
    have h2 := Take.read_le hr
    omega
  · simp only [HttpChunkedBody.pending, hc, hs]
    exact HttpBodyChunk.new_lt hn

instance {c : Cfg} {ρ : Type} [LawfulReader ρ] [ZeroReader ρ] : Reader (HttpChunkedBody c ρ) :=
  { read := HttpChunkedBody.readImpl }

/-- `src/protocol.rs:138-142`. -/
inductive HttpBody (c : Cfg) (ρ : Type) where
  | Chunked (b : HttpChunkedBody c ρ)
  | Limited (t : Take ρ)
  | ReadTilClose (r : ρ)

namespace HttpBody

/-- `src/protocol.rs:144-152`. -/
def readImpl {c : Cfg} {ρ : Type} [LawfulReader ρ] [ZeroReader ρ] (b : HttpBody c ρ) (n : Nat) :
    Except Err Bytes × HttpBody c ρ :=
  match b with
  | .Chunked i => match read i n with | (r, i') => (r, .Chunked i')
  | .Limited i => match read i n with | (r, i') => (r, .Limited i')
  | .ReadTilClose i => match read i n with | (r, i') => (r, .ReadTilClose i')

instance {c : Cfg} {ρ : Type} [LawfulReader ρ] [ZeroReader ρ] : Reader (HttpBody c ρ) := { read := readImpl }

variable {c : Cfg} {ρ : Type}

/-- `src/protocol.rs:155-167`. -/
def new (c : Cfg) {ρ : Type} (encoding : Option Bytes) (contentLength : Option Nat) (body : ρ) : HttpBody c ρ :=
  if encoding = some b!"chunked" then .Chunked (HttpChunkedBody.new c contentLength body)
  else match contentLength with
    | some length => .Limited ⟨body, length⟩
    | none => .ReadTilClose body

/-- `src/protocol.rs:169-181`. -/
def requireLength (b : HttpBody c ρ) : Res Unit :=
  let hasLength := match b with
    | .Chunked _ => true
    | .Limited _ => true
    | .ReadTilClose _ => false
  if !hasLength then .err .lengthRequired else .ok ()

/-- `src/protocol.rs:183-189`. -/
def contentLength (b : HttpBody c ρ) : Option Nat :=
  match b with
  | .Chunked i => i.contentLength
  | .Limited t => some t.limit
  | .ReadTilClose _ => none

/-- The stream under the body, wherever it is (ghost; needed to follow a pooled connection). -/
def under (b : HttpBody c ρ) : Option ρ :=
  match b with
  | .Chunked i => match i.chunk with
    | some ch => some ch.inner
    | none => match i.stream with
      | some s => some s
      | none => i.lost
  | .Limited t => some t.inner
  | .ReadTilClose r => some r

end HttpBody

end HttpIo
