import Verif.Model.Writer

/-!
Streams that do not keep the contract of `read` and `write`. Elsewhere in the model a `read` returns the bytes it has
read and a `write` a count that fits, so that a stream cannot claim to have read or written more than it was given room
for. Nothing in the types of the code forbids that: a `read` fills a buffer and returns a number (`src/io.rs:6-7`), a
`write` returns a number (`:56`). Here are the functions of `src/io.rs` that use such a number, over any stream.
-/

namespace HttpIo

/-- `trait Read` as its users see it (`src/io.rs:6-7`): from the buffer, the outcome and the buffer afterwards. The number is
any number; the buffer is a borrowed slice, so its length stays. -/
class RawReader (σ : Type) where
  rawRead : σ → Bytes → Except Err Nat × Bytes × σ
  rawRead_length : ∀ s buf, (rawRead s buf).2.1.length = buf.length

/-- `trait Write` as its users see it (`src/io.rs:55-56`): the number is any number. -/
class RawWriter (σ : Type) where
  rawWrite : σ → Bytes → Except Err Nat × σ

export RawReader (rawRead rawRead_length)
export RawWriter (rawWrite)

section
variable {σ τ : Type} [RawReader σ] [RawWriter τ]

/-- `Read::read_exact` (`src/io.rs:25-40`): `&mut tmp[n..]` (`:31`) panics if `n` is more than there is. Yields the buffer
when it is full. -/
def rawReadExact (s : σ) (buf : Bytes) : Res Bytes × σ :=
  if _hb : buf = [] then (.ok [], s)
  else
    match _h : rawRead s buf with
    | (.error e, _, s') => (.err e, s')
    | (.ok 0, _, s') => (.err .unexpectedEof, s')
    | (.ok (k + 1), buf', s') =>
      if k + 1 ≤ buf'.length then
        match rawReadExact s' (buf'.drop (k + 1)) with
        | (.ok more, s'') => (.ok (buf'.take (k + 1) ++ more), s'')
        | (.err e, s'') => (.err e, s'')
        | (.panic, s'') => (.panic, s'')
      else (.panic, s')
termination_by buf.length
decreasing_by
  have h1 := rawRead_length s buf
  rw [_h] at h1
  dsimp only at h1
  have : 0 < buf.length := List.length_pos_iff.mpr _hb
  simp only [List.length_drop]
  omega

/-- `Write::write_all` (`src/io.rs:59-68`): `&buf[n..]` (`:63`) panics if `n` is more than there is. -/
def rawWriteAll (s : τ) (buf : Bytes) : Res Unit × τ :=
  if _hb : buf = [] then (.ok (), s)
  else
    match rawWrite s buf with
    | (.error e, s') => (.err e, s')
    | (.ok 0, s') => (.err .unexpectedEof, s')
    | (.ok (k + 1), s') => if k + 1 ≤ buf.length then rawWriteAll s' (buf.drop (k + 1)) else (.panic, s')
termination_by buf.length
decreasing_by
  have : 0 < buf.length := List.length_pos_iff.mpr _hb
  simp only [List.length_drop]
  omega

/-- One turn of the loop of `io::copy` (`src/io.rs:178-186`), with the buffer as the turn before left it: `&buf[..len]`
(`:184`) panics if `len` is more than there is. `ok none`: the reader is at its end. `ok (some n)`: `n` bytes were copied. -/
def rawCopyTurn (r : σ) (w : τ) (buf : Bytes) : Res (Option Nat) × Bytes × σ × τ :=
  match rawRead r buf with
  | (.error e, buf, r) => (.err e, buf, r, w)
  | (.ok 0, buf, r) => (.ok none, buf, r, w)
  | (.ok (k + 1), buf, r) =>
    if k + 1 ≤ buf.length then
      match rawWriteAll w (buf.take (k + 1)) with
      | (.ok (), w) => (.ok (some (k + 1)), buf, r, w)
      | (.err e, w) => (.err e, buf, r, w)
      | (.panic, w) => (.panic, buf, r, w)
    else (.panic, buf, r, w)

/-- `Bytes::next` (`src/io.rs:231-240`): any number but zero is taken for one byte. -/
def rawBytesNext (s : σ) : Option (Except Err UInt8) × σ :=
  match rawRead s [0] with
  | (.ok 0, _, s') => (none, s')
  | (.ok (_ + 1), buf, s') => (some (.ok (buf.headD 0)), s')
  | (.error e, _, s') => (some (.error e), s')

/-- `Take::read` (`src/io.rs:213-224`). `checked`: a subtraction that overflows panics, as it does in a debug build; in a
release build it wraps. (`std`'s `Take` asserts that the number is not above the limit, which is the case `checked`.) -/
def rawTakeRead (checked : Bool) (t : Take σ) (buf : Bytes) : Res Nat × Bytes × Take σ :=
  if t.limit = 0 then (.ok 0, buf, t)
  else
    let max := min buf.length t.limit
    match rawRead t.inner (buf.take max) with
    | (.error e, b, s) => (.err e, b ++ buf.drop max, ⟨s, t.limit⟩)
    | (.ok n, b, s) =>
      if n ≤ t.limit then (.ok n, b ++ buf.drop max, ⟨s, t.limit - n⟩)
      else if checked then (.panic, b ++ buf.drop max, ⟨s, t.limit⟩)
      else (.ok n, b ++ buf.drop max, ⟨s, t.limit + 2 ^ 64 - n⟩)

end

/-- A reader of the model, as such a stream: what it has read is put at the beginning of the buffer. -/
def asRaw {σ : Type} [LawfulReader σ] (s : σ) (buf : Bytes) : Except Err Nat × Bytes × σ :=
  match read s buf.length with
  | (.error e, s') => (.error e, buf, s')
  | (.ok bs, s') => (.ok bs.length, (bs ++ buf.drop bs.length).take buf.length, s')

/-- See `asRaw`. Not an instance that is found by itself. -/
@[reducible] def LawfulReader.raw {σ : Type} [LawfulReader σ] : RawReader σ where
  rawRead := asRaw
  rawRead_length s buf := by
    unfold asRaw
    rcases read s buf.length with ⟨_ | bs, s'⟩
    · rfl
    · simp only [List.length_take, List.length_append, List.length_drop]
      omega

/-- A writer of the model, as such a stream. -/
@[reducible] def FiniteWriter.raw {σ : Type} [FiniteWriter σ] : RawWriter σ where
  rawWrite := write

end HttpIo
