import Verif.Model.Message
import Verif.Model.WriterLaws

/-!
`impl io::Write for OutgoingBody / OutgoingRequest` (`src/protocol.rs:1801-1843`) as instances of the writer classes,
so that `write_all` and `copy` apply to them.
-/

namespace HttpIo

section
variable {σ : Type} [Writer σ]

theorem writePieces_le {c : Cfg} {s s' : σ} {ps : List Bytes} {r : Except Err Unit} (h : writePieces c s ps = (r, s')) :
    patience s' ≤ patience s ∧ ∀ e, r = .error e → e.isInterrupted = true → patience s' < patience s := by
  induction ps generalizing s with
  | nil =>
    simp only [writePieces, Prod.mk.injEq] at h
    rw [← h.1, ← h.2]; simp
  | cons a ps ih =>
    unfold writePieces at h
    rcases hw : writeAll c s a with ⟨_ | _, s1⟩
    · rw [hw] at h
      simp only [Prod.mk.injEq] at h
      have := Writer.writeAll_le hw
      rw [← h.1, ← h.2]; exact this
    · rw [hw] at h
      have h1 := Writer.writeAll_le hw
      have h2 := ih h
      exact ⟨by omega, fun e he hi => by have := h2.2 e he hi; omega⟩

theorem OutgoingBody.write_le {c : Cfg} {b b' : OutgoingBody c σ} {buf : Bytes} {r : Except Err Nat}
    (h : b.writeImpl buf = (r, b')) :
    patience b'.socket ≤ patience b.socket ∧ (∀ k, r = .ok k → k = buf.length) ∧
      ∀ e, r = .error e → e.isInterrupted = true → patience b'.socket < patience b.socket := by
  unfold OutgoingBody.writeImpl at h
  by_cases h0 : buf.length = 0
  · rw [if_pos h0] at h
    simp only [Prod.mk.injEq] at h
    rw [← h.1, ← h.2]
    exact ⟨Nat.le_refl _, fun k hk => by simp only [Except.ok.injEq] at hk; omega, by simp⟩
  · rw [if_neg h0] at h
    rcases h1 : writePieces c b.socket [showHex buf.length, b!"\r\n"] with ⟨r1, w1⟩
    rw [h1] at h
    have g1 := writePieces_le h1
    cases r1 with
    | error e =>
      simp only [Prod.mk.injEq] at h
      rw [← h.1, ← h.2]
      exact ⟨g1.1, by simp, fun e' he hi => g1.2 e' (by simpa using he) hi⟩
    | ok _ =>
      dsimp only at h
      rcases h2 : writeAll c w1 buf with ⟨r2, w2⟩
      rw [h2] at h
      have g2 := Writer.writeAll_le h2
      cases r2 with
      | error e =>
        simp only [Prod.mk.injEq] at h
        rw [← h.1, ← h.2]
        exact ⟨Nat.le_trans g2.1 g1.1, by simp, fun e' he hi =>
          Nat.lt_of_lt_of_le (g2.2 e' (by simpa using he) hi) g1.1⟩
      | ok _ =>
        dsimp only at h
        rcases h3 : writePieces c w2 [b!"\r\n"] with ⟨r3, w3⟩
        rw [h3] at h
        have g3 := writePieces_le h3
        cases r3 with
        | error e =>
          simp only [Prod.mk.injEq] at h
          rw [← h.1, ← h.2]
          exact ⟨Nat.le_trans g3.1 (Nat.le_trans g2.1 g1.1), by simp, fun e' he hi =>
            Nat.lt_of_lt_of_le (g3.2 e' (by simpa using he) hi) (Nat.le_trans g2.1 g1.1)⟩
        | ok _ =>
          simp only [Prod.mk.injEq] at h
          rw [← h.1, ← h.2]
          exact ⟨Nat.le_trans g3.1 (Nat.le_trans g2.1 g1.1), fun k hk => by simpa [eq_comm] using hk, by simp⟩

end

/-- `src/protocol.rs:1828-1843`. -/
instance {c : Cfg} {σ : Type} [Writer σ] : FiniteWriter (OutgoingBody c σ) where
  write := OutgoingBody.writeImpl
  flush := OutgoingBody.flushImpl
  patience b := patience b.socket
  write_ok h := by
    have := OutgoingBody.write_le h
    exact ⟨Nat.le_of_eq (this.2.1 _ rfl), this.1⟩
  write_err h := by
    have := OutgoingBody.write_le h
    exact ⟨this.1, this.2.2 _ rfl⟩
  flush_le b := FiniteWriter.flush_le b.socket

/-- `write_all` is the provided method. -/
instance {c : Cfg} {σ : Type} [Writer σ] : Writer (OutgoingBody c σ) where
  writeAll := defaultWriteAll
  writeAll_le h := defaultWriteAll_le h

/-- Ghost: interruptions still possible. -/
def OutgoingRequest.patienceImpl {c : Cfg} {σ : Type} [Writer σ] : OutgoingRequest c σ → Nat
  | .NoBody s => patience s
  | .WithBody b => patience b

/-- `src/protocol.rs:1801-1822`. -/
instance {c : Cfg} {σ : Type} [Writer σ] : FiniteWriter (OutgoingRequest c σ) where
  write := OutgoingRequest.writeImpl
  flush := OutgoingRequest.flushImpl
  patience := OutgoingRequest.patienceImpl
  write_ok {r r'} buf k h := by
    unfold OutgoingRequest.writeImpl at h
    cases r with
    | NoBody s => simp at h
    | WithBody b =>
      simp only [Prod.mk.injEq] at h
      rw [← h.2]
      exact FiniteWriter.write_ok (σ := OutgoingBody c σ) (s := b) (s' := (b.writeImpl buf).2) (Prod.ext h.1 rfl)
  write_err {r r'} buf e h := by
    unfold OutgoingRequest.writeImpl at h
    cases r with
    | NoBody s =>
      simp only [Prod.mk.injEq, Except.error.injEq] at h
      rw [← h.2, ← h.1]
      refine ⟨Nat.le_refl _, fun hi => ?_⟩
      unfold noBodyErr at hi
      split at hi <;> simp [Err.isInterrupted] at hi
    | WithBody b =>
      simp only [Prod.mk.injEq] at h
      rw [← h.2]
      exact FiniteWriter.write_err (σ := OutgoingBody c σ) (s := b) (s' := (b.writeImpl buf).2) (Prod.ext h.1 rfl)
  flush_le r := by
    unfold OutgoingRequest.flushImpl
    cases r with
    | NoBody s => exact Nat.le_refl _
    | WithBody b => exact FiniteWriter.flush_le (σ := OutgoingBody c σ) b

/-- `write_all` is the provided method. -/
instance {c : Cfg} {σ : Type} [Writer σ] : Writer (OutgoingRequest c σ) where
  writeAll := defaultWriteAll
  writeAll_le h := defaultWriteAll_le h

end HttpIo
