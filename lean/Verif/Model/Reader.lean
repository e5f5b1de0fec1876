import Verif.Model.Base

/-!
The reading half of the I/O layer: `trait Read` and its adaptors (`src/io.rs`, or `std::io`).
-/

set_option linter.unusedVariables false

namespace HttpIo

/-- One event of an input stream: a byte, or a failed `read` call. -/
inductive Ev where
  | byte (b : UInt8)
  | fault (e : Err)
deriving DecidableEq, Repr

/-- `trait Read` (`src/io.rs:6-7`). `read s n` models `read(buf)` with `buf.len() = n`; the bytes returned are
what was stored at the front of `buf`. `&mut T` and `Box<T>` readers (`src/io.rs:43-53`) forward the call and
are not distinguished from `T`. `bufferSize` is what `std::io::copy` finds out about the reader's own buffer
(`BufferedReaderSpec::buffer_size` in `std`): nothing but for a few types of `std`. -/
class Reader (σ : Type) where
  read : σ → Nat → Except Err Bytes × σ
  bufferSize : σ → Nat := fun _ => 0

/-- What one `read` call may do on a stream with pending events (first argument), for a non-empty buffer of
length `n`: report end of stream only if nothing is pending; report the pending fault; or return any non-empty
prefix of the pending bytes that fits. This is the documented contract of `Read::read`. -/
inductive ReadStep : List Ev → Nat → Except Err Bytes → List Ev → Prop
  | eof (n : Nat) : ReadStep [] n (.ok []) []
  | fault (e : Err) (t : List Ev) (n : Nat) : ReadStep (.fault e :: t) n (.error e) t
  | data (bs : Bytes) (t : List Ev) (n : Nat) : bs ≠ [] → bs.length ≤ n →
      ReadStep (bs.map .byte ++ t) n (.ok bs) t

/-- A reader that keeps the contract of `Read::read`. `trace` is a ghost: the events still to be delivered, in
order. Nothing is assumed about how they are split into reads. -/
class LawfulReader (σ : Type) extends Reader σ where
  trace : σ → List Ev
  read_step : ∀ s n, 0 < n → ReadStep (trace s) n (read s n).1 (trace (read s n).2)

/-- What a `read` with an empty buffer does on ordinary readers: nothing, or report a pending fault. -/
class ZeroReader (σ : Type) [LawfulReader σ] : Prop where
  read_zero : ∀ s : σ,
    ((Reader.read s 0).1 = .ok [] ∧ LawfulReader.trace (Reader.read s 0).2 = LawfulReader.trace s) ∨
    ∃ e t, LawfulReader.trace s = .fault e :: t ∧ (Reader.read s 0).1 = .error e ∧
      LawfulReader.trace (Reader.read s 0).2 = t

export Reader (read)
export LawfulReader (trace)

section generic
variable {σ : Type} [LawfulReader σ]

theorem trace_lt_of_error {s s' : σ} {n : Nat} {e : Err} (hn : 0 < n)
    (h : read s n = (.error e, s')) : (trace s').length < (trace s).length := by
  have := LawfulReader.read_step s n hn
  rw [h] at this
  generalize trace s = t at *
  generalize ht' : trace s' = t' at *
  cases this with
  | fault => simp

theorem trace_of_data {s s' : σ} {n : Nat} {bs : Bytes} (hn : 0 < n) (hb : bs ≠ [])
    (h : read s n = (.ok bs, s')) : trace s = bs.map .byte ++ trace s' := by
  have := LawfulReader.read_step s n hn
  rw [h] at this
  generalize trace s = t at *
  generalize ht' : trace s' = t' at *
  cases this with
  | eof => exact absurd rfl hb
  | data => rfl

/-- `Bytes::next` (`src/io.rs:229-242`; `std::io::Bytes` when `c.std`, which retries `Interrupted`). -/
def bytesNext (c : Cfg) (s : σ) : Option (Except Err UInt8) × σ :=
  match h : read s 1 with
  | (.ok [], s') => (none, s')
  | (.ok (b :: _), s') => (some (.ok b), s')
  | (.error e, s') => if c.retries e then bytesNext c s' else (some (.error e), s')
termination_by (trace s).length
decreasing_by exact trace_lt_of_error (by omega) h

/-- `Read::read_exact` (`src/io.rs:24-40`; `std::io::Read::read_exact` when `c.std`). Returns the bytes that
fill the buffer of length `n`. -/
def readExact (c : Cfg) (s : σ) (n : Nat) : Except Err Bytes × σ :=
  if hn : n = 0 then (.ok [], s)
  else
    match h : read s n with
    | (.ok [], s') => (.error c.eofErr, s')
    | (.ok (b :: bs), s') =>
      match readExact c s' (n - (b :: bs).length) with
      | (.ok more, s'') => (.ok (b :: bs ++ more), s'')
      | (.error e, s'') => (.error e, s'')
    | (.error e, s') => if c.retries e then readExact c s' n else (.error e, s')
termination_by (trace s).length
decreasing_by
  · rw [trace_of_data (by omega) (by simp) h]; simp; omega
  · exact trace_lt_of_error (by omega) h

end generic

/-! ### `Take` -/

/-- `src/io.rs:197-200` (same in `std::io`). -/
structure Take (σ : Type) where
  inner : σ
  limit : Nat
deriving DecidableEq

/-- `src/io.rs:212-223`. (`std::io::Take::read` is the same code.) -/
def Take.readImpl {σ : Type} [Reader σ] (t : Take σ) (n : Nat) : Except Err Bytes × Take σ :=
  if t.limit = 0 then (.ok [], t)
  else
    match read t.inner (min n t.limit) with
    | (.ok bs, i) => (.ok bs, { inner := i, limit := t.limit - bs.length })
    | (.error e, i) => (.error e, { t with inner := i })

instance {σ : Type} [Reader σ] : Reader (Take σ) := { read := Take.readImpl }

theorem Take.read_def {σ : Type} [Reader σ] (t : Take σ) (n : Nat) : read t n = Take.readImpl t n := rfl

/-- The events of a stream cut after `k` bytes. Faults do not count. -/
def limitTrace : Nat → List Ev → List Ev
  | 0, _ => []
  | _ + 1, [] => []
  | k + 1, .byte b :: t => .byte b :: limitTrace k t
  | k + 1, .fault e :: t => .fault e :: limitTrace (k + 1) t

/-! ### `BufReader` -/

/-- Capacity of `std::io::BufReader` / `BufWriter` and of the buffer in `io::copy` (`DEFAULT_BUF_SIZE`,
`src/io.rs:169`; the same 8 KiB in `std`). -/
def bufCap : Nat := 8 * 1024

/-- `io::BufReader`. `src/io.rs:149-151` (no buffer; `buf` stays empty) or `std::io::BufReader`. -/
structure BufReader (c : Cfg) (σ : Type) where
  inner : σ
  buf : Bytes

/-- `src/io.rs:154-156` / `std::io::BufReader::new`. -/
def BufReader.new (c : Cfg) {σ : Type} (inner : σ) : BufReader c σ := ⟨inner, []⟩

/-- `src/io.rs:163-167`: forward. With `std`: a read at least as large as the capacity bypasses an empty buffer;
otherwise an empty buffer is refilled by one inner read, and the buffer is drained. -/
def BufReader.readImpl {c : Cfg} {σ : Type} [Reader σ] (r : BufReader c σ) (n : Nat) :
    Except Err Bytes × BufReader c σ :=
  if c.std then
    if r.buf.isEmpty then
      if n ≥ bufCap then
        match read r.inner n with
        | (res, i) => (res, { inner := i, buf := [] })
      else
        match read r.inner bufCap with
        | (.ok bs, i) => (.ok (bs.take n), { inner := i, buf := bs.drop n })
        | (.error e, i) => (.error e, { inner := i, buf := [] })
    else (.ok (r.buf.take n), { r with buf := r.buf.drop n })
  else
    match read r.inner n with
    | (res, i) => (res, { r with inner := i })

instance {c : Cfg} {σ : Type} [Reader σ] : Reader (BufReader c σ) := { read := BufReader.readImpl }

theorem BufReader.read_def {c : Cfg} {σ : Type} [Reader σ] (r : BufReader c σ) (n : Nat) :
    read r n = BufReader.readImpl r n := rfl

/-! ### Leaf readers -/

/-- `impl Read for &[u8]` (`src/io.rs:280-293`). -/
structure SliceReader where
  bytes : Bytes
deriving DecidableEq, Repr

def SliceReader.readImpl (r : SliceReader) (n : Nat) : Except Err Bytes × SliceReader :=
  (.ok (r.bytes.take (min n r.bytes.length)), ⟨r.bytes.drop (min n r.bytes.length)⟩)

/-- `std::io::copy` takes a slice whole (`buffer_size` is `usize::MAX`). -/
instance : Reader SliceReader := { read := SliceReader.readImpl, bufferSize := fun _ => 2 ^ 64 - 1 }

theorem SliceReader.read_def (r : SliceReader) (n : Nat) : read r n = SliceReader.readImpl r n := rfl

/-- `read_exact` for `&[u8]`, overridden at `src/io.rs:295-309`. -/
def SliceReader.readExact (c : Cfg) (r : SliceReader) (n : Nat) : Except Err Bytes × SliceReader :=
  if n > r.bytes.length then (.error c.eofErr, r)
  else (.ok (r.bytes.take n), ⟨r.bytes.drop n⟩)

/-- `Cursor<T>` (`src/io.rs:248-257`). -/
structure Cursor where
  inner : Bytes
  pos : Nat
deriving DecidableEq, Repr

/-- `src/io.rs:254-256`. -/
def Cursor.new (inner : Bytes) : Cursor := ⟨inner, 0⟩

/-- `src/io.rs:263-266`. -/
def Cursor.fillBuf (r : Cursor) : Bytes := r.inner.drop (min r.pos r.inner.length)

/-- `src/io.rs:273-277`. -/
def Cursor.readImpl (r : Cursor) (n : Nat) : Except Err Bytes × Cursor :=
  match read (SliceReader.mk r.fillBuf) n with
  | (.ok bs, _) => (.ok bs, { r with pos := r.pos + bs.length })
  | (.error e, _) => (.error e, r)

instance : Reader Cursor := { read := Cursor.readImpl }

/-- `Empty` (`src/io.rs:189-195`). -/
inductive EmptyReader where
  | mk
deriving DecidableEq, Repr

instance : Reader EmptyReader := { read := fun s _ => (.ok [], s) }

/-- A scripted transport: a list of segments and faults. Each `read` returns (part of) the next segment, or the
next fault; end of stream when the script is over. This is the stand-in for a socket or any `dyn Read`. -/
inductive WireEv where
  | data (bs : Bytes)
  | fault (e : Err)
deriving DecidableEq, Repr

structure Wire where
  evs : List WireEv
deriving DecidableEq, Repr

def Wire.readEvs : List WireEv → Nat → Except Err Bytes × List WireEv
  | [], _ => (.ok [], [])
  | .data [] :: t, n => Wire.readEvs t n
  | .data (b :: bs) :: t, n =>
    if (b :: bs).length ≤ n then (.ok (b :: bs), t)
    else (.ok ((b :: bs).take n), .data ((b :: bs).drop n) :: t)
  | .fault e :: t, _ => (.error e, t)

instance : Reader Wire :=
  { read := fun w n => match Wire.readEvs w.evs n with | (r, t) => (r, ⟨t⟩) }

end HttpIo
