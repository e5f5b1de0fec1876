import Verif.Model.Reader

/-!
The writing half of the I/O layer: `trait Write` and `BufWriter` (`src/io.rs`, or `std::io`), and `copy`.
-/

namespace HttpIo

/-- `trait Write` (`src/io.rs:55-57`): `write s buf` returns how many bytes of `buf` were accepted.
`patience` is a ghost: the number of `Interrupted` errors the transport may still report (`std`'s loops repeat
interrupted calls; they end because there are finitely many). -/
class FiniteWriter (σ : Type) where
  write : σ → Bytes → Except Err Nat × σ
  flush : σ → Except Err Unit × σ
  patience : σ → Nat
  write_ok : ∀ {s s' : σ} {buf : Bytes} {k : Nat}, write s buf = (.ok k, s') →
    k ≤ buf.length ∧ patience s' ≤ patience s
  write_err : ∀ {s s' : σ} {buf : Bytes} {e : Err}, write s buf = (.error e, s') →
    patience s' ≤ patience s ∧ (e.isInterrupted = true → patience s' < patience s)
  flush_le : ∀ s : σ, patience (flush s).2 ≤ patience s

export FiniteWriter (write flush patience)

/-- The loop of `write_all` (`src/io.rs:59-68`) and of `std`'s `write_all` and `BufWriter::flush_buf`: write
until nothing is left. Returns also the part that was not accepted. `c` decides whether `Interrupted` is
repeated and which error a zero-length write becomes. -/
def writeLoop {σ : Type} [FiniteWriter σ] (c : Cfg) (s : σ) (buf : Bytes) : Except Err Unit × Bytes × σ :=
  if hb : buf = [] then (.ok (), [], s)
  else
    match h : write s buf with
    | (.ok 0, s') => (.error c.writeZeroErr, buf, s')
    | (.ok (k + 1), s') => writeLoop c s' (buf.drop (k + 1))
    | (.error e, s') => if c.retries e then writeLoop c s' buf else (.error e, buf, s')
termination_by buf.length + patience s
decreasing_by
  · have := FiniteWriter.write_ok h
    simp only [List.length_drop]
    have : 0 < buf.length := List.length_pos_iff.2 hb
    omega
  · have := (FiniteWriter.write_err h).2 (by simp_all [Cfg.retries])
    omega

/-- `Write::write_all`, the provided method (`src/io.rs:59-68`, `std::io::Write::write_all`). -/
def defaultWriteAll {σ : Type} [FiniteWriter σ] (c : Cfg) (s : σ) (buf : Bytes) : Except Err Unit × σ :=
  match writeLoop c s buf with
  | (r, _, s') => (r, s')

/-- `trait Write` with its provided method, which an implementation may override (`std::io::BufWriter` does). -/
class Writer (σ : Type) extends FiniteWriter σ where
  writeAll : Cfg → σ → Bytes → Except Err Unit × σ
  writeAll_le : ∀ {c : Cfg} {s s' : σ} {buf : Bytes} {r : Except Err Unit}, writeAll c s buf = (r, s') →
    patience s' ≤ patience s ∧ ∀ e, r = .error e → e.isInterrupted = true → patience s' < patience s

export Writer (writeAll)

/-- `write!(w, ...)`: every piece of the format string and every formatted argument is handed to `write_all`;
the first error ends it (`src/io.rs:70-102`, `std::io::Write::write_fmt`). An argument whose `Display` itself writes
several pieces (`HttpVersion.pieces`) counts as these. -/
def writePieces {σ : Type} [Writer σ] (c : Cfg) (s : σ) : List Bytes → Except Err Unit × σ
  | [] => (.ok (), s)
  | p :: ps =>
    match writeAll c s p with
    | (.ok (), s') => writePieces c s' ps
    | (.error e, s') => (.error e, s')

/-! ### BufWriter -/

/-- `io::BufWriter`: `src/io.rs:125-127` (no buffer; `buf` stays empty) or `std::io::BufWriter`. -/
structure BufWriter (c : Cfg) (σ : Type) where
  inner : σ
  buf : Bytes
deriving DecidableEq, Repr

namespace BufWriter
variable {c : Cfg} {σ : Type}

/-- `src/io.rs:130-132`, `std::io::BufWriter::new`. -/
def new (c : Cfg) {σ : Type} (inner : σ) : BufWriter c σ := ⟨inner, []⟩

/-- `std::io::BufWriter::flush_buf`: what was written leaves the buffer, also on error. -/
def flushBuf [FiniteWriter σ] (w : BufWriter c σ) : Except Err Unit × BufWriter c σ :=
  match writeLoop c w.inner w.buf with
  | (r, rest, i) => (r, ⟨i, rest⟩)

/-- `src/io.rs:140-142`: forward. `std`: small writes go to the buffer, which is emptied first when it has no
room; a write of at least the capacity bypasses the (then empty) buffer. -/
def writeImpl [FiniteWriter σ] (w : BufWriter c σ) (buf : Bytes) : Except Err Nat × BufWriter c σ :=
  if c.std then
    if buf.length < bufCap - w.buf.length then (.ok buf.length, { w with buf := w.buf ++ buf })
    else
      match (if buf.length > bufCap - w.buf.length then w.flushBuf else (.ok (), w)) with
      | (.error e, w') => (.error e, w')
      | (.ok (), w') =>
        if buf.length ≥ bufCap then
          match write w'.inner buf with
          | (r, i) => (r, { w' with inner := i })
        else (.ok buf.length, { w' with buf := w'.buf ++ buf })
  else
    match write w.inner buf with
    | (r, i) => (r, { w with inner := i })

/-- `src/io.rs:144-146`; `std`: `flush_buf`, then flush the inner writer. -/
def flushImpl [FiniteWriter σ] (w : BufWriter c σ) : Except Err Unit × BufWriter c σ :=
  if c.std then
    match w.flushBuf with
    | (.error e, w') => (.error e, w')
    | (.ok (), w') =>
      match flush w'.inner with
      | (r, i) => (r, { w' with inner := i })
  else
    match flush w.inner with
    | (r, i) => (r, { w with inner := i })

/-- `src/io.rs:134-136`; `std`: `flush_buf`, without flushing the inner writer. On failure the writer is inside
the error value. -/
def intoInner [FiniteWriter σ] (w : BufWriter c σ) : Except (Err × BufWriter c σ) σ :=
  if c.std then
    match w.flushBuf with
    | (.error e, w') => .error (e, w')
    | (.ok (), w') => .ok w'.inner
  else .ok w.inner

/-- Dropping the writer: `std` tries `flush_buf` once more and ignores the result. The inner writer goes back to
whoever owns it (relevant when it is a `&mut` to a pooled connection). -/
def dropped [FiniteWriter σ] (w : BufWriter c σ) : σ :=
  if c.std then w.flushBuf.2.inner else w.inner

end BufWriter

section
variable {σ : Type} [FiniteWriter σ]

theorem writeLoop_le {c : Cfg} {s s' : σ} {buf rest : Bytes} {r : Except Err Unit}
    (h : writeLoop c s buf = (r, rest, s')) :
    patience s' ≤ patience s ∧ ∀ e, r = .error e → e.isInterrupted = true → patience s' < patience s := by
  fun_induction writeLoop c s buf with
  | case1 s => simp only [Prod.mk.injEq] at h; rw [← h.2.2, ← h.1]; simp
  | case2 s buf hb s1 hw =>
    simp only [Prod.mk.injEq] at h
    have := FiniteWriter.write_ok hw
    rw [← h.2.2, ← h.1]
    refine ⟨by omega, ?_⟩
    intro e he hi
    simp only [Except.error.injEq] at he
    rw [← he] at hi
    unfold Cfg.writeZeroErr at hi
    split at hi <;> simp [Err.isInterrupted] at hi
  | case3 s buf hb k s1 hw ih =>
    have := FiniteWriter.write_ok hw
    have := ih h
    exact ⟨by omega, fun e he hi => by have := this.2 e he hi; omega⟩
  | case4 s buf hb e s1 hw hr ih =>
    have h1 := FiniteWriter.write_err hw
    have := ih h
    exact ⟨by omega, fun e he hi => by have := this.2 e he hi; omega⟩
  | case5 s buf hb e s1 hw hr =>
    have h1 := FiniteWriter.write_err hw
    simp only [Prod.mk.injEq] at h
    rw [← h.2.2, ← h.1]
    refine ⟨by omega, fun e' he hi => ?_⟩
    simp only [Except.error.injEq] at he
    exact h1.2 (by rw [he]; exact hi)

theorem defaultWriteAll_le {c : Cfg} {s s' : σ} {buf : Bytes} {r : Except Err Unit}
    (h : defaultWriteAll c s buf = (r, s')) :
    patience s' ≤ patience s ∧ ∀ e, r = .error e → e.isInterrupted = true → patience s' < patience s := by
  unfold defaultWriteAll at h
  rcases hw : writeLoop c s buf with ⟨r', rest, s1⟩
  rw [hw] at h
  simp only [Prod.mk.injEq] at h
  rw [← h.1, ← h.2]
  exact writeLoop_le hw

theorem BufWriter.flushBuf_le {c : Cfg} {w w' : BufWriter c σ} {r : Except Err Unit} (h : w.flushBuf = (r, w')) :
    patience w'.inner ≤ patience w.inner ∧
      ∀ e, r = .error e → e.isInterrupted = true → patience w'.inner < patience w.inner := by
  unfold BufWriter.flushBuf at h
  rcases hw : writeLoop c w.inner w.buf with ⟨r', rest, s1⟩
  rw [hw] at h
  simp only [Prod.mk.injEq] at h
  rw [← h.1, ← h.2]
  exact writeLoop_le hw

end

instance {c : Cfg} {σ : Type} [FiniteWriter σ] : FiniteWriter (BufWriter c σ) where
  write := BufWriter.writeImpl
  flush := BufWriter.flushImpl
  patience w := patience w.inner
  write_ok {w w'} buf k h := by
    unfold BufWriter.writeImpl at h
    split at h
    · split at h
      · simp only [Prod.mk.injEq, Except.ok.injEq] at h; rw [← h.1, ← h.2]; simp
      · split at h
        · simp at h
        · rename_i w1 heq
          have h1 : patience w1.inner ≤ patience w.inner := by
            split at heq
            · exact (BufWriter.flushBuf_le heq).1
            · simp only [Prod.mk.injEq, true_and] at heq; rw [heq]; exact Nat.le_refl _
          split at h
          · rcases hw : write w1.inner buf with ⟨r, i⟩
            rw [hw] at h
            simp only [Prod.mk.injEq] at h
            rw [h.1] at hw
            have := FiniteWriter.write_ok hw
            rw [← h.2]; dsimp only; omega
          · simp only [Prod.mk.injEq, Except.ok.injEq] at h; rw [← h.1, ← h.2]; dsimp only; omega
    · rcases hw : write w.inner buf with ⟨r, i⟩
      rw [hw] at h
      simp only [Prod.mk.injEq] at h
      rw [h.1] at hw
      have := FiniteWriter.write_ok hw
      rw [← h.2]; exact this
  write_err {w w'} buf e h := by
    unfold BufWriter.writeImpl at h
    split at h
    · split at h
      · simp at h
      · split at h
        · rename_i e1 w1 heq
          simp only [Prod.mk.injEq, Except.error.injEq] at h
          rw [← h.1, ← h.2]
          split at heq
          · have := BufWriter.flushBuf_le heq
            exact ⟨this.1, this.2 _ rfl⟩
          · simp at heq
        · rename_i w1 heq
          have h1 : patience w1.inner ≤ patience w.inner := by
            split at heq
            · exact (BufWriter.flushBuf_le heq).1
            · simp only [Prod.mk.injEq, true_and] at heq; rw [heq]; exact Nat.le_refl _
          split at h
          · rcases hw : write w1.inner buf with ⟨r, i⟩
            rw [hw] at h
            simp only [Prod.mk.injEq] at h
            rw [h.1] at hw
            have := FiniteWriter.write_err hw
            rw [← h.2]
            exact ⟨by dsimp only; omega, fun hi => by have := this.2 hi; dsimp only; omega⟩
          · simp at h
    · rcases hw : write w.inner buf with ⟨r, i⟩
      rw [hw] at h
      simp only [Prod.mk.injEq] at h
      rw [h.1] at hw
      have := FiniteWriter.write_err hw
      rw [← h.2]; exact this
  flush_le w := by
    unfold BufWriter.flushImpl
    split
    · rcases hf : w.flushBuf with ⟨_ | _, w1⟩
      · exact (BufWriter.flushBuf_le hf).1
      · have := (BufWriter.flushBuf_le hf).1
        have h2 := FiniteWriter.flush_le w1.inner
        dsimp only; omega
    · exact FiniteWriter.flush_le w.inner

/-- `std::io::BufWriter::write_all` (overrides the provided method): like `write`, but a large buffer is handed
to the inner `write_all`. `src/io.rs` does not override it. -/
def BufWriter.writeAllImpl {c : Cfg} {σ : Type} [Writer σ] (w : BufWriter c σ) (buf : Bytes) :
    Except Err Unit × BufWriter c σ :=
  if c.std then
    if buf.length < bufCap - w.buf.length then (.ok (), { w with buf := w.buf ++ buf })
    else
      match (if buf.length > bufCap - w.buf.length then w.flushBuf else (.ok (), w)) with
      | (.error e, w') => (.error e, w')
      | (.ok (), w') =>
        if buf.length ≥ bufCap then
          match writeAll c w'.inner buf with
          | (r, i) => (r, { w' with inner := i })
        else (.ok (), { w' with buf := w'.buf ++ buf })
  else defaultWriteAll c w buf

instance {c : Cfg} {σ : Type} [Writer σ] : Writer (BufWriter c σ) where
  writeAll _ := BufWriter.writeAllImpl
  writeAll_le {c' w w'} buf r h := by
    unfold BufWriter.writeAllImpl at h
    split at h
    · split at h
      · simp only [Prod.mk.injEq] at h; rw [← h.1, ← h.2]; exact ⟨Nat.le_refl _, by simp⟩
      · split at h
        · rename_i e1 w1 heq
          simp only [Prod.mk.injEq] at h
          rw [← h.1, ← h.2]
          split at heq
          · have := BufWriter.flushBuf_le heq
            refine ⟨this.1, fun e he hi => this.2 e ?_ hi⟩
            exact he
          · simp at heq
        · rename_i w1 heq
          have h1 : patience w1.inner ≤ patience w.inner := by
            split at heq
            · exact (BufWriter.flushBuf_le heq).1
            · simp only [Prod.mk.injEq, true_and] at heq; rw [heq]; exact Nat.le_refl _
          split at h
          · rcases hw : writeAll c w1.inner buf with ⟨r', i⟩
            rw [hw] at h
            simp only [Prod.mk.injEq] at h
            have := Writer.writeAll_le hw
            rw [← h.1, ← h.2]
            refine ⟨Nat.le_trans this.1 h1, fun e he hi => Nat.lt_of_lt_of_le (this.2 e he hi) h1⟩
          · simp only [Prod.mk.injEq] at h
            rw [← h.1, ← h.2]
            exact ⟨h1, by simp⟩
    · exact defaultWriteAll_le h

/-! ### `copy` -/

/-- The size of the buffer of `copy`: 8 KiB in `src/io.rs:176`, and in `std` unless the reader has a larger one of its
own, of which all it holds is then written at once (a `usize`). -/
def copySize {ρ : Type} [Reader ρ] (c : Cfg) (r : ρ) : Nat :=
  if c.std then max bufCap (min (Reader.bufferSize r) (2 ^ 64 - 1)) else bufCap

theorem copySize_pos {ρ : Type} [Reader ρ] (c : Cfg) (r : ρ) : 0 < copySize c r := by
  unfold copySize bufCap
  split <;> omega

theorem copySize_lt {ρ : Type} [Reader ρ] (c : Cfg) (r : ρ) : copySize c r < 2 ^ 64 := by
  unfold copySize bufCap
  split <;> omega

/-- `io::copy` (`src/io.rs:171-187`; `std::io::copy` when `c.std`, which repeats interrupted reads). The count
is returned on success. Simplification: the special cases of `std::io::copy` for its own writers (`BufWriter`, `Vec`) and
for two file descriptors are left out; nothing in the crate copies into the former or between the latter. -/
def copy {ρ σ : Type} [LawfulReader ρ] [Writer σ] (c : Cfg) (r : ρ) (w : σ) (written : Nat) :
    Except Err Nat × ρ × σ :=
  match h : read r (copySize c r) with
  | (.ok [], r') => (.ok written, r', w)
  | (.ok (b :: bs), r') =>
    match writeAll c w (b :: bs) with
    | (.ok (), w') => copy c r' w' (written + (b :: bs).length)
    | (.error e, w') => (.error e, r', w')
  | (.error e, r') => if c.retries e then copy c r' w written else (.error e, r', w)
termination_by (trace r).length
decreasing_by
  · rw [trace_of_data (copySize_pos c r) (by simp) h]; simp; omega
  · exact trace_lt_of_error (copySize_pos c r) h

end HttpIo
