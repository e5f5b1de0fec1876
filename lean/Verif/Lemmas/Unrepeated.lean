import Verif.Spec.Repeat
import Verif.Spec.Handed
import Verif.Lemmas.Outgoing
import Verif.Lemmas.Client

/-! Copying into a request: no write is repeated. -/

namespace HttpIo
open Spec

section
variable {c : Cfg} {σ : Type}

theorem writeLoop_unrepeated [FiniteWriter σ] {s s' : σ} {buf rest : Bytes} {e : Err}
    (h : writeLoop c s buf = (.error e, rest, s')) : ¬ Retried c e := by
  fun_induction writeLoop c s buf with
  | case1 => simp at h
  | case2 s buf hb s1 hw =>
    simp only [Prod.mk.injEq, Except.error.injEq] at h
    rw [← h.1]
    unfold Cfg.writeZeroErr Retried
    split <;> simp
  | case3 s buf hb k s1 hw ih => exact ih h
  | case4 s buf hb e s1 hw hr ih => exact ih h
  | case5 s buf hb e1 s1 hw hr =>
    simp only [Prod.mk.injEq, Except.error.injEq] at h
    rw [← h.1, ← retries_iff]
    exact hr

theorem defaultWriteAll_unrepeated [FiniteWriter σ] {s s' : σ} {buf : Bytes} {e : Err}
    (h : defaultWriteAll c s buf = (.error e, s')) : ¬ Retried c e := by
  unfold defaultWriteAll at h
  rcases hw : writeLoop c s buf with ⟨r, rest, s1⟩
  rw [hw] at h
  simp only [Prod.mk.injEq] at h
  rw [h.1] at hw
  exact writeLoop_unrepeated hw

theorem Spec.PlainWriteAll.unrepeated [Writer σ] (hp : PlainWriteAll σ) : Unrepeated c σ := by
  intro s s' buf e h
  rw [hp] at h
  exact defaultWriteAll_unrepeated h

theorem Spec.Unrepeated.bufWriter [Writer σ] (hu : Unrepeated c σ) : Unrepeated c (BufWriter c σ) := by
  intro w w' buf e h
  have h : w.writeAllImpl buf = (.error e, w') := h
  unfold BufWriter.writeAllImpl at h
  split at h
  · split at h
    · simp at h
    · split at h
      · rename_i e1 w1 heq
        simp only [Prod.mk.injEq, Except.error.injEq] at h
        split at heq
        · unfold BufWriter.flushBuf at heq
          rcases hl : writeLoop c w.inner w.buf with ⟨r, rest, i⟩
          rw [hl] at heq
          simp only [Prod.mk.injEq] at heq
          rw [heq.1, h.1] at hl
          exact writeLoop_unrepeated hl
        · simp at heq
      · rename_i w1 heq
        split at h
        · rcases hl : writeAll c w1.inner buf with ⟨r, i⟩
          rw [hl] at h
          simp only [Prod.mk.injEq] at h
          rw [h.1] at hl
          exact hu _ _ _ _ hl
        · simp at h
  · exact defaultWriteAll_unrepeated h

theorem Spec.Unrepeated.writePieces [Writer σ] (hu : Unrepeated c σ) {s s' : σ} {ps : List Bytes} {e : Err}
    (h : writePieces c s ps = (.error e, s')) : ¬ Retried c e := by
  induction ps generalizing s with
  | nil => simp [HttpIo.writePieces] at h
  | cons p ps ih =>
    rw [HttpIo.writePieces] at h
    rcases hw : writeAll c s p with ⟨e1 | _, s1⟩
    · rw [hw] at h
      simp only [Prod.mk.injEq, Except.error.injEq] at h
      rw [h.1] at hw
      exact hu _ _ _ _ hw
    · rw [hw] at h
      exact ih h

/-- A write to the body of a request does not fail with an interruption. -/
theorem Spec.Unrepeated.outgoingBody [Writer σ] (hu : Unrepeated c σ) {b b' : OutgoingBody c σ} {buf : Bytes} {e : Err}
    (h : b.writeImpl buf = (.error e, b')) : ¬ Retried c e := by
  unfold OutgoingBody.writeImpl at h
  split at h
  · simp at h
  · split at h
    · rename_i heq
      simp only [Prod.mk.injEq, Except.error.injEq] at h
      rw [h.1] at heq
      exact hu.bufWriter.writePieces heq
    · split at h
      · rename_i heq
        simp only [Prod.mk.injEq, Except.error.injEq] at h
        rw [h.1] at heq
        exact hu.bufWriter _ _ _ _ heq
      · split at h
        · rename_i heq
          simp only [Prod.mk.injEq, Except.error.injEq] at h
          rw [h.1] at heq
          exact hu.bufWriter.writePieces heq
        · simp at h

/-- `write_all` to the body is one `write`. -/
theorem Spec.Unrepeated.writeAll_once [Writer σ] (hu : Unrepeated c σ) {b : OutgoingBody c σ} {o' : OutgoingRequest c σ} {buf : Bytes}
    (hne : buf ≠ []) (h : writeAll c (OutgoingRequest.WithBody b) buf = (.ok (), o')) :
    ∃ b', o' = .WithBody b' ∧ b.writeImpl buf = (.ok buf.length, b') := by
  have h : defaultWriteAll c (OutgoingRequest.WithBody b) buf = (.ok (), o') := h
  unfold defaultWriteAll at h
  rcases hw : b.writeImpl buf with ⟨r, b1⟩
  have hwr : write (OutgoingRequest.WithBody b) buf = (r, .WithBody b1) := by
    show OutgoingRequest.writeImpl (.WithBody b) buf = _
    unfold OutgoingRequest.writeImpl
    dsimp only
    rw [hw]
  have hle := OutgoingBody.write_le hw
  rw [writeLoop, dif_neg hne] at h
  split at h
  rename_i r1 x1 s1 heq
  simp only [Prod.mk.injEq] at h
  rw [h.1, h.2] at heq
  split at heq <;> rename_i heq2 <;> rw [hwr] at heq2 <;> simp only [Prod.mk.injEq] at heq2
  · simp at heq
  · have hj := hle.2.1 _ heq2.1
    rw [← heq2.2, ← Nat.succ_eq_add_one, hj, List.drop_length, writeLoop, dif_pos rfl] at heq
    simp only [Prod.mk.injEq, true_and] at heq
    exact ⟨b1, heq.2.symm, by rw [heq2.1, hj]⟩
  · rw [heq2.1] at hw
    rw [if_neg (by rw [retries_iff]; exact hu.outgoingBody hw)] at heq
    simp at heq

end

section
variable {c : Cfg} {σ : Type} [Writer σ]

/-- `copy` into a request with a body writes what the reader gives, each piece once. -/
theorem Spec.Unrepeated.copy (hu : Unrepeated c σ) {ρ : Type} [LawfulReader ρ] {r r' : ρ} {b : OutgoingBody c σ}
    {o' : OutgoingRequest c σ} {n k : Nat} (hc : copy c r (.WithBody b) n = (.ok k, r', o')) :
    ∃ (bufs : List Bytes) (b' : OutgoingBody c σ) (t' : List Ev), o' = .WithBody b' ∧
      perform b (bufs.map .write) = (true, b') ∧ Delivers c (trace r) bufs.flatten t' ∧ Ended c t' ∧
      ∀ buf ∈ bufs, buf.length < 2 ^ 64 := by
  generalize ho : OutgoingRequest.WithBody b = o at hc
  fun_induction HttpIo.copy c r o n generalizing b with
  | case1 r w n r1 hr =>
    simp only [Prod.mk.injEq] at hc
    have := LawfulReader.read_step r _ (copySize_pos c r)
    rw [hr] at this
    refine ⟨[], b, trace r, by rw [← hc.2.2, ho], rfl, .nil _, ?_, by simp⟩
    rcases this.ok_inv with ⟨_, h1, _⟩ | ⟨h1, _⟩
    · rw [h1]; simp [Ended]
    · exact absurd rfl h1
  | case2 r w n b0 bs r1 hr w1 hw ih =>
    subst ho
    obtain ⟨b1, hw1, g1⟩ := hu.writeAll_once (by simp) hw
    obtain ⟨bufs, b', t', f1, f2, f3, f4, f5⟩ := ih hw1.symm hc
    have ht := trace_of_data (copySize_pos _ _) (by simp) hr
    refine ⟨(b0 :: bs) :: bufs, b', t', f1, ?_, ?_, f4, ?_⟩
    · rw [List.map_cons, perform]
      rw [show write b (b0 :: bs) = (.ok (b0 :: bs).length, b1) from g1]
      simpa using f2
    · rw [ht, List.flatten_cons]; exact (delivers_map c (b0 :: bs) _).append f3
    · intro buf hbuf
      rcases List.mem_cons.1 hbuf with rfl | hbuf
      · have := LawfulReader.read_step r _ (copySize_pos c r)
        rw [hr] at this
        rcases this.ok_inv with ⟨h1, _⟩ | ⟨_, h1, _⟩
        · simp at h1
        · exact Nat.lt_of_le_of_lt h1 (copySize_lt c r)
      · exact f5 buf hbuf
  | case3 r w n b0 bs r1 hr e1 w1 hw => simp at hc
  | case4 r w n e r1 hr hret ih =>
    obtain ⟨bufs, b', t', f1, f2, f3, f4, f5⟩ := ih ho hc
    have := LawfulReader.read_step r _ (copySize_pos c r)
    rw [hr] at this
    have ht := this.error_inv
    dsimp only at ht
    rw [ht]
    cases hf : bufs.flatten with
    | nil =>
      rw [hf] at f3
      have hn : Ended c (trace r1) := by
        generalize hz : ([] : Bytes) = z at f3
        clear ht hr this
        generalize trace r1 = u at f3 ⊢
        cases f3 with
        | nil => exact f4
        | byte => simp at hz
        | retry => simp at hz
      refine ⟨bufs, b', _, f1, f2, by rw [hf]; exact .nil _, ?_, f5⟩
      intro ev hev
      rcases List.mem_cons.1 hev with rfl | hev
      · exact ⟨e, rfl, retries_iff.1 hret⟩
      · exact hn ev hev
    | cons x xs =>
      rw [hf] at f3
      exact ⟨bufs, b', t', f1, f2, by rw [hf]; exact .retry (retries_iff.1 hret) f3, f4, f5⟩
  | case5 r w n e r1 hr hre => simp at hc

/-- A request without body takes nothing: `copy` into it succeeds only if there is nothing to copy. -/
theorem copy_noBody {ρ : Type} [LawfulReader ρ] {r r' : ρ} {s : σ} {o' : OutgoingRequest c σ} {n k : Nat}
    (hc : copy c r (.NoBody s) n = (.ok k, r', o')) : o' = .NoBody s := by
  generalize ho : OutgoingRequest.NoBody s = o at hc
  fun_induction HttpIo.copy c r o n with
  | case1 r w n r1 hr => simp only [Prod.mk.injEq] at hc; rw [← hc.2.2, ← ho]
  | case2 r w n b0 bs r1 hr w1 hw ih =>
    subst ho
    have hw : defaultWriteAll c (OutgoingRequest.NoBody s) (b0 :: bs) = (.ok (), w1) := hw
    unfold defaultWriteAll at hw
    have hwr : write (OutgoingRequest.NoBody s) (b0 :: bs) = (.error (noBodyErr c), .NoBody s) := rfl
    rw [writeLoop, dif_neg (by simp)] at hw
    have hn : ¬ c.retries (noBodyErr c) = true := by
      rw [retries_iff]; unfold noBodyErr Retried; split <;> simp
    split at hw
    rename_i r2 x2 s2 heq
    simp only [Prod.mk.injEq] at hw
    rw [hw.1] at heq
    split at heq <;> rename_i heq2 <;> rw [hwr] at heq2 <;>
      simp only [Prod.mk.injEq, reduceCtorEq, false_and, Except.error.injEq] at heq2
    rw [← heq2.1, if_neg hn] at heq
    simp at heq
  | case3 r w n b0 bs r1 hr e1 w1 hw => simp at hc
  | case4 r w n e r1 hr hret ih => exact ih ho hc
  | case5 r w n e r1 hr hre => simp at hc

end

end HttpIo
