import Verif.Model.Client
import Verif.Spec.Io

/-! What writing does not change: a predicate on the transport that is kept by every write and flush is kept by
everything the client does until it reads. -/

namespace HttpIo
open Spec

/-- `P` survives every call on the writer. -/
structure Kept {σ : Type} [Writer σ] (P : σ → Prop) : Prop where
  write : ∀ s buf, P s → P (write s buf).2
  flush : ∀ s, P s → P (flush s).2
  writeAll : ∀ c s buf, P s → P (writeAll c s buf).2

section
variable {c : Cfg} {σ : Type} [Writer σ] {P : σ → Prop}

theorem writeLoop_kept {τ : Type} [FiniteWriter τ] {Q : τ → Prop} (h : ∀ s buf, Q s → Q (write s buf).2) {c : Cfg} {s : τ}
    {buf : Bytes} (hs : Q s) : Q (writeLoop c s buf).2.2 := by
  fun_induction writeLoop c s buf with
  | case1 s => exact hs
  | case2 s buf hb s1 hw => have := h s buf hs; rwa [hw] at this
  | case3 s buf hb k s1 hw ih => have := h s buf hs; rw [hw] at this; exact ih this
  | case4 s buf hb e s1 hw hr ih => have := h s buf hs; rw [hw] at this; exact ih this
  | case5 s buf hb e s1 hw hr => have := h s buf hs; rwa [hw] at this

theorem defaultWriteAll_kept {τ : Type} [FiniteWriter τ] {Q : τ → Prop} (h : ∀ s buf, Q s → Q (write s buf).2) {c : Cfg} {s : τ}
    {buf : Bytes} (hs : Q s) : Q (defaultWriteAll c s buf).2 := by
  have := writeLoop_kept h (c := c) (buf := buf) hs
  exact this

theorem Kept.flushBuf (h : Kept P) {w : BufWriter c σ} (hs : P w.inner) : P w.flushBuf.2.inner := by
  have := writeLoop_kept h.write (c := c) (buf := w.buf) hs
  exact this

theorem Kept.dropped (h : Kept P) {w : BufWriter c σ} (hs : P w.inner) : P w.dropped := by
  unfold BufWriter.dropped
  split
  · exact h.flushBuf hs
  · exact hs

theorem Kept.intoInner (h : Kept P) {w : BufWriter c σ} (hs : P w.inner) :
    match w.intoInner with
    | .ok s => P s
    | .error (_, w') => P w'.inner := by
  have := h.flushBuf hs
  unfold BufWriter.intoInner
  by_cases hc : c.std = true
  · rw [if_pos hc]
    rcases hf : w.flushBuf with ⟨_ | _, w'⟩ <;> rw [hf] at this <;> exact this
  · rw [if_neg hc]; exact hs

theorem Kept.bufWriter (h : Kept P) : Kept fun w : BufWriter c σ => P w.inner where
  write w buf hw := by
    show P (w.writeImpl buf).2.inner
    unfold BufWriter.writeImpl
    split
    · split
      · exact hw
      · have hroom : P (if buf.length > bufCap - w.buf.length then w.flushBuf else (.ok (), w)).2.inner := by
          split
          · exact h.flushBuf hw
          · exact hw
        split <;> rename_i heq <;> rw [heq] at hroom
        · exact hroom
        · split
          · exact h.write _ _ hroom
          · exact hroom
    · exact h.write _ _ hw
  flush w hw := by
    show P w.flushImpl.2.inner
    unfold BufWriter.flushImpl
    have := h.flushBuf hw
    split
    · split <;> rename_i heq <;> rw [heq] at this
      · exact this
      · exact h.flush _ this
    · exact h.flush _ hw
  writeAll c' w buf hw := by
    show P (w.writeAllImpl buf).2.inner
    unfold BufWriter.writeAllImpl
    split
    · split
      · exact hw
      · have hroom : P (if buf.length > bufCap - w.buf.length then w.flushBuf else (.ok (), w)).2.inner := by
          split
          · exact h.flushBuf hw
          · exact hw
        split <;> rename_i heq <;> rw [heq] at hroom
        · exact hroom
        · split
          · exact h.writeAll _ _ _ hroom
          · exact hroom
    · refine defaultWriteAll_kept (Q := fun w : BufWriter c σ => P w.inner) (fun w buf hw => ?_) hw
      show P (w.writeImpl buf).2.inner
      unfold BufWriter.writeImpl
      rw [if_neg (by assumption)]
      exact h.write _ _ hw

theorem Kept.writePieces (h : Kept P) {s : σ} {ps : List Bytes} (hs : P s) : P (writePieces c s ps).2 := by
  induction ps generalizing s with
  | nil => exact hs
  | cons p ps ih =>
    unfold HttpIo.writePieces
    have := h.writeAll c s p hs
    split <;> rename_i heq <;> rw [heq] at this
    · exact ih this
    · exact this

/-- The transport under an outgoing request. -/
def OutgoingRequest.socketOf : OutgoingRequest c σ → σ
  | .NoBody s => s
  | .WithBody b => b.socket.inner

theorem Kept.outgoingBody (h : Kept P) {b : OutgoingBody c σ} {buf : Bytes} (hb : P b.socket.inner) :
    P (b.writeImpl buf).2.socket.inner := by
  have hk := h.bufWriter (c := c)
  unfold OutgoingBody.writeImpl
  split
  · exact hb
  · have h1 := hk.writePieces (c := c) (ps := [showHex buf.length, b!"\r\n"]) hb
    split <;> rename_i heq <;> rw [heq] at h1
    · exact h1
    · rename_i w1
      have h2 := hk.writeAll c w1 buf h1
      split <;> rename_i heq <;> rw [heq] at h2
      · exact h2
      · rename_i w2
        have h3 := hk.writePieces (c := c) (ps := [b!"\r\n"]) h2
        split <;> rename_i heq <;> rw [heq] at h3
        · exact h3
        · exact h3

theorem Kept.outgoing (h : Kept P) : Kept fun o : OutgoingRequest c σ => P o.socketOf := by
  have hw : ∀ (o : OutgoingRequest c σ) buf, P o.socketOf → P (o.writeImpl buf).2.socketOf := by
    intro o buf ho
    cases o with
    | NoBody s => exact ho
    | WithBody b => exact h.outgoingBody (b := b) ho
  refine ⟨hw, ?_, ?_⟩
  · intro o ho
    cases o with
    | NoBody s => exact ho
    | WithBody b => exact (h.bufWriter (c := c)).flush b.socket ho
  · intro c' o buf ho
    exact defaultWriteAll_kept (Q := fun o : OutgoingRequest c σ => P o.socketOf) hw ho

theorem Kept.serialize (h : Kept P) {ρ : Type} {r : HttpRequest c ρ} {s : σ} (hs : P s) :
    match r.serialize (BufWriter.new c s) with
    | .ok o => P o.socketOf
    | .error (_, s') => P s' := by
  have h1 := (h.bufWriter (c := c)).writePieces (c := c) (s := BufWriter.new c s) (ps := r.headPieces) hs
  unfold HttpRequest.serialize
  rcases hw : HttpIo.writePieces c (BufWriter.new c s) r.headPieces with ⟨_ | _, w⟩
  · rw [hw] at h1
    exact h.dropped h1
  · rw [hw] at h1
    dsimp only
    by_cases hb : r.method.hasBody = true
    · rw [if_pos hb]; exact h1
    · rw [if_neg hb]
      have h2 := h.intoInner h1
      cases hi : w.intoInner with
      | ok t => rw [hi] at h2; exact h2
      | error x => rw [hi] at h2; exact h.dropped h2

theorem Kept.complete (h : Kept P) {o : OutgoingRequest c σ} (ho : P o.socketOf) :
    match o.complete with
    | .ok s => P s
    | .error (_, s) => P s := by
  unfold OutgoingRequest.complete
  cases o with
  | NoBody s =>
    have := h.flush s ho
    dsimp only
    rcases hf : HttpIo.flush s with ⟨_ | _, s'⟩ <;> rw [hf] at this <;> exact this
  | WithBody b =>
    have h1 := (h.bufWriter (c := c)).writePieces (c := c) (s := b.socket) (ps := [b!"0\r\n\r\n"]) ho
    dsimp only
    rcases hw : HttpIo.writePieces c b.socket [b!"0\r\n\r\n"] with ⟨_ | _, w⟩
    · rw [hw] at h1
      exact h.dropped h1
    · rw [hw] at h1
      dsimp only
      have h2 := (h.bufWriter (c := c)).flush w h1
      rcases hf : HttpIo.flush w with ⟨_ | _, w'⟩
      · rw [hf] at h2; exact h.dropped h2
      · rw [hf] at h2
        dsimp only
        have h3 := h.intoInner h2
        cases hi : w'.intoInner with
        | ok t => rw [hi] at h3; exact h3
        | error x => rw [hi] at h3; exact h.dropped h3

theorem Kept.droppedRequest (h : Kept P) {o : OutgoingRequest c σ} (ho : P o.socketOf) : P o.dropped := by
  unfold OutgoingRequest.dropped
  cases o with
  | NoBody s => exact ho
  | WithBody b => exact h.dropped ho

theorem Kept.perform (h : Kept P) {s : σ} {cs : List WCall} (hs : P s) : P (perform s cs).2 := by
  induction cs generalizing s with
  | nil => exact hs
  | cons cl cs ih =>
    cases cl with
    | write buf =>
      rw [Spec.perform]
      have := h.write s buf hs
      rcases hw : HttpIo.write s buf with ⟨_ | k, s'⟩ <;> rw [hw] at this
      · exact this
      · dsimp only
        split
        · exact ih this
        · exact this
    | flush =>
      rw [Spec.perform]
      have := h.flush s hs
      rcases hw : HttpIo.flush s with ⟨_ | k, s'⟩ <;> rw [hw] at this
      · exact this
      · exact ih this

theorem Kept.attempt (h : Kept P) {s : σ} {cs : List WCall} (hs : P s) : P (attempt s cs).2 := by
  induction cs generalizing s with
  | nil => exact hs
  | cons cl cs ih =>
    cases cl with
    | write buf => exact ih (h.write s buf hs)
    | flush => exact ih (h.flush s hs)

theorem Kept.copy (h : Kept P) {ρ : Type} [LawfulReader ρ] {r : ρ} {s : σ} {n : Nat} (hs : P s) :
    P (copy c r s n).2.2 := by
  fun_induction HttpIo.copy c r s n with
  | case1 => exact hs
  | case2 r w n b bs r1 hr w1 hw ih =>
    have := h.writeAll c w (b :: bs) hs
    rw [hw] at this
    exact ih this
  | case3 r w n b bs r1 hr e1 w1 hw =>
    have := h.writeAll c w (b :: bs) hs
    rwa [hw] at this
  | case4 r w n e r1 hr hret ih => exact ih hs
  | case5 => exact hs

end

end HttpIo
