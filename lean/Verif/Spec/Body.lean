import Verif.Spec.Stream
import Verif.Model.Writer
import Verif.Spec.Text

/-! Specification vocabulary for reading bodies: what a caller observes over a schedule of `read` calls, and the
chunked transfer coding. -/

namespace HttpIo.Spec

/-- The caller calls `read` once for each buffer size in the list: the results in order, and the reader after. -/
def calls {σ : Type} [Reader σ] : σ → List Nat → List (Except Err Bytes) × σ
  | s, [] => ([], s)
  | s, n :: ns => ((Reader.read s n).1 :: (calls (Reader.read s n).2 ns).1, (calls (Reader.read s n).2 ns).2)

/-- Every buffer size is positive. -/
def Positive (sizes : List Nat) : Prop := ∀ n ∈ sizes, 0 < n

/-- The results are non-empty pieces of `bs`, in order. -/
def Pieces (rs : List (Except Err Bytes)) (bs : Bytes) : Prop :=
  ∃ xs : List Bytes, rs = xs.map .ok ∧ (∀ x ∈ xs, x ≠ []) ∧ xs.flatten = bs

/-- Whatever positive buffer sizes the caller uses, it gets exactly `bs` in pieces and then end of stream for ever;
end of stream comes after at most `bs.length` pieces. -/
def Yields {σ : Type} [Reader σ] (s : σ) (bs : Bytes) : Prop :=
  ∀ sizes, Positive sizes →
    (∃ p, Pieces (calls s sizes).1 p ∧ p <+: bs ∧ sizes.length ≤ bs.length) ∨
    (∃ rs k, (calls s sizes).1 = rs ++ List.replicate (k + 1) (.ok []) ∧ Pieces rs bs)

/-- Whatever positive buffer sizes the caller uses, it gets exactly `bs` in pieces and then the error `e`; it does
not see end of stream before that. -/
def FailsAfter {σ : Type} [Reader σ] (s : σ) (bs : Bytes) (e : Err) : Prop :=
  ∀ sizes, Positive sizes →
    (∃ p, Pieces (calls s sizes).1 p ∧ p <+: bs ∧ sizes.length ≤ bs.length) ∨
    (∃ rs later, (calls s sizes).1 = rs ++ .error e :: later ∧ Pieces rs bs)

/-- The bytes among the results. -/
def received : List (Except Err Bytes) → Bytes
  | [] => []
  | .ok bs :: rs => bs ++ received rs
  | .error _ :: rs => received rs

/-- What a caller that keeps reading has seen, as events: the bytes and the errors, in order. -/
def seen : List (Except Err Bytes) → List Ev
  | [] => []
  | .ok bs :: rs => bs.map .byte ++ seen rs
  | .error e :: rs => .fault e :: seen rs

/-- The bytes among events. -/
def bytesOf : List Ev → Bytes
  | [] => []
  | .byte b :: t => b :: bytesOf t
  | .fault _ :: t => bytesOf t

/-- One chunk: the text of its size line, its data, and the two bytes that follow the data. -/
structure Chunk where
  size : Bytes
  data : Bytes
  tail : Bytes

/-- The size text is a hexadecimal numeral for the length of the (non-empty) data, which is followed by two bytes. -/
def Chunk.Sized (ch : Chunk) : Prop :=
  UnsignedText 16 ch.size ch.data.length ∧ ch.data ≠ [] ∧ ch.data.length < 2 ^ 64 ∧ ch.tail.length = 2

/-- ... and these two bytes are CR LF. -/
def Chunk.WellFormed (ch : Chunk) : Prop := ch.Sized ∧ ch.tail = [13, 10]

/-- The chunk on the wire. -/
def Chunk.bytes (ch : Chunk) : Bytes := ch.size ++ [13, 10] ++ ch.data ++ ch.tail

/-- A whole chunked body on the wire, up to and including its last size line, whose text is `last`. -/
def chunkedBytes (chunks : List Chunk) (last : Bytes) : Bytes :=
  (chunks.map Chunk.bytes).flatten ++ last ++ [13, 10]

/-- The data of the chunks. -/
def chunkedData (chunks : List Chunk) : Bytes := (chunks.map Chunk.data).flatten

/-- The events `t` deliver the chunks and the last size line, then `rest` is pending. A reader that repeats
interrupted calls meets such interruptions only in size lines and in the two bytes after the data. -/
inductive DeliversChunked (c : Cfg) : List Ev → List Chunk → Bytes → List Ev → Prop
  | last {t rest : List Ev} {last : Bytes} : Delivers c t (last ++ [13, 10]) rest → DeliversChunked c t [] last rest
  | chunk {t t1 t2 rest : List Ev} {ch : Chunk} {chs : List Chunk} {last : Bytes} :
      Delivers c t (ch.size ++ [13, 10]) (ch.data.map .byte ++ t1) → Delivers c t1 ch.tail t2 →
      DeliversChunked c t2 chs last rest → DeliversChunked c t (ch :: chs) last rest

/-- One call on a writer. -/
inductive WCall where
  | write (buf : Bytes)
  | flush
deriving DecidableEq

/-- The caller makes these calls, one after the other, and stops at the first failure. A `write` call counts as failed
if it does not take the whole buffer. The writer after the calls, and whether all succeeded. -/
def perform {σ : Type} [FiniteWriter σ] : σ → List WCall → Bool × σ
  | s, [] => (true, s)
  | s, .write buf :: cs =>
    match FiniteWriter.write s buf with
    | (.ok k, s') => if k = buf.length then perform s' cs else (false, s')
    | (.error _, s') => (false, s')
  | s, .flush :: cs =>
    match FiniteWriter.flush s with
    | (.ok (), s') => perform s' cs
    | (.error _, s') => (false, s')

/-- The buffers written by the calls. -/
def written : List WCall → List Bytes
  | [] => []
  | .write buf :: cs => buf :: written cs
  | .flush :: cs => written cs

/-- Well-formed chunks, one for each non-empty buffer, in order. -/
def ChunksFor (chs : List Chunk) (bufs : List Bytes) : Prop :=
  (∀ ch ∈ chs, ch.WellFormed) ∧ chs.map Chunk.data = bufs.filter (· ≠ [])

/-- What calls with these results put into a body: a chunk for each write that succeeded, and the beginning of a chunk,
perhaps nothing or all of it, for each that failed. -/
inductive Torn : List WCall → List (Except Err Nat) → Bytes → Prop
  | nil : Torn [] [] []
  | empty {cs rs x} : Torn cs rs x → Torn (.write [] :: cs) (.ok 0 :: rs) x
  | written {ch : Chunk} {cs rs x} : ch.WellFormed → Torn cs rs x →
      Torn (.write ch.data :: cs) (.ok ch.data.length :: rs) (ch.bytes ++ x)
  | failed {ch : Chunk} {p : Bytes} {e : Err} {cs rs x} : ch.WellFormed → p <+: ch.bytes → Torn cs rs x →
      Torn (.write ch.data :: cs) (.error e :: rs) (p ++ x)
  | flush {r : Except Err Nat} {cs rs x} : Torn cs rs x → Torn (.flush :: cs) (r :: rs) x

end HttpIo.Spec
