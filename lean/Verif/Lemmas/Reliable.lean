import Verif.Lemmas.Kept
import Verif.Lemmas.Stream
import Verif.Model.WriterLaws

/-! On a transport that does not fail, sending does not fail. -/

namespace HttpIo
open Spec

section
variable {c : Cfg} {σ : Type} [Writer σ] {P : σ → Prop}

theorem Spec.Reliable.loop {τ : Type} [FiniteWriter τ] {Q : τ → Prop} (hn : ∀ s buf, Q s → Q (write s buf).2)
    (hw : ∀ s buf, Q s → buf ≠ [] →
      (∃ k, (write s buf).1 = .ok (k + 1)) ∨ ∃ e, (write s buf).1 = .error e ∧ Retried c e)
    {s : τ} {buf : Bytes} (hs : Q s) : (writeLoop c s buf).1 = .ok () := by
  fun_induction writeLoop c s buf with
  | case1 s => rfl
  | case2 s buf hb s1 h =>
    have := hw s buf hs hb
    rw [h] at this
    simp at this
  | case3 s buf hb k s1 h ih => have := hn s buf hs; rw [h] at this; exact ih this
  | case4 s buf hb e s1 h hr ih => have := hn s buf hs; rw [h] at this; exact ih this
  | case5 s buf hb e s1 h hr =>
    have := hw s buf hs hb
    rw [h] at this
    simp only [reduceCtorEq, exists_false, Except.error.injEq, false_or] at this
    obtain ⟨e', h1, h2⟩ := this
    rw [h1] at hr
    exact absurd ((retries_iff).2 h2) hr

theorem Spec.Reliable.flushBuf_ok (h : Reliable c P) {w : BufWriter c σ} (hs : P w.inner) :
    w.flushBuf.1 = .ok () ∧ P w.flushBuf.2.inner :=
  ⟨Reliable.loop h.write_next h.write_ok (buf := w.buf) hs, writeLoop_kept h.write_next (buf := w.buf) hs⟩

theorem Spec.Reliable.room (h : Reliable c P) {w : BufWriter c σ} (hs : P w.inner) (n : Nat) :
    ∃ w', (if n > bufCap - w.buf.length then w.flushBuf else (.ok (), w)) = (.ok (), w') ∧ P w'.inner := by
  by_cases hn : n > bufCap - w.buf.length
  · rw [if_pos hn]
    have := h.flushBuf_ok hs
    exact ⟨_, Prod.ext this.1 rfl, this.2⟩
  · rw [if_neg hn]
    exact ⟨w, rfl, hs⟩

theorem Spec.Reliable.bufWriter (h : Reliable c P) : Reliable c fun w : BufWriter c σ => P w.inner := by
  have hwrite : ∀ (w : BufWriter c σ) buf, P w.inner → P (write w buf).2.inner ∧ (buf ≠ [] →
      (∃ k, (write w buf).1 = .ok (k + 1)) ∨ ∃ e, (write w buf).1 = .error e ∧ Retried c e) := by
    intro w buf hw
    show P (w.writeImpl buf).2.inner ∧ (buf ≠ [] →
      (∃ k, (w.writeImpl buf).1 = .ok (k + 1)) ∨ ∃ e, (w.writeImpl buf).1 = .error e ∧ Retried c e)
    have hlen : buf ≠ [] → ∃ k, buf.length = k + 1 := fun hb =>
      ⟨buf.length - 1, by have := List.length_pos_iff.2 hb; omega⟩
    unfold BufWriter.writeImpl
    by_cases hc : c.std = true
    · rw [if_pos hc]
      by_cases h1 : buf.length < bufCap - w.buf.length
      · rw [if_pos h1]
        refine ⟨hw, fun hb => .inl ?_⟩
        obtain ⟨k, hk⟩ := hlen hb
        exact ⟨k, by rw [hk]⟩
      · rw [if_neg h1]
        obtain ⟨w', h2, h3⟩ := h.room hw buf.length
        rw [h2]
        dsimp only
        by_cases h4 : buf.length ≥ bufCap
        · rw [if_pos h4]
          exact ⟨h.write_next _ _ h3, fun hb => h.write_ok _ _ h3 hb⟩
        · rw [if_neg h4]
          refine ⟨h3, fun hb => .inl ?_⟩
          obtain ⟨k, hk⟩ := hlen hb
          exact ⟨k, by rw [hk]⟩
    · rw [if_neg hc]
      exact ⟨h.write_next _ _ hw, fun hb => h.write_ok _ _ hw hb⟩
  have hflush : ∀ (w : BufWriter c σ), P w.inner → P (flush w).2.inner ∧ (flush w).1 = .ok () := by
    intro w hw
    show P w.flushImpl.2.inner ∧ w.flushImpl.1 = .ok ()
    unfold BufWriter.flushImpl
    by_cases hc : c.std = true
    · rw [if_pos hc]
      have h1 := h.flushBuf_ok hw
      rcases hf : w.flushBuf with ⟨r, w'⟩
      rw [hf] at h1
      obtain ⟨h2, h3⟩ := h1
      dsimp only at h2 h3
      subst h2
      exact ⟨h.flush_next _ h3, h.flush_ok _ h3⟩
    · rw [if_neg hc]; exact ⟨h.flush_next _ hw, h.flush_ok _ hw⟩
  have hall : ∀ (w : BufWriter c σ) buf, P w.inner → P (writeAll c w buf).2.inner ∧ (writeAll c w buf).1 = .ok () := by
    intro w buf hw
    show P (w.writeAllImpl buf).2.inner ∧ (w.writeAllImpl buf).1 = .ok ()
    unfold BufWriter.writeAllImpl
    by_cases hc : c.std = true
    · rw [if_pos hc]
      by_cases h1 : buf.length < bufCap - w.buf.length
      · rw [if_pos h1]; exact ⟨hw, rfl⟩
      · rw [if_neg h1]
        obtain ⟨w', h2, h3⟩ := h.room hw buf.length
        rw [h2]
        dsimp only
        by_cases h4 : buf.length ≥ bufCap
        · rw [if_pos h4]; exact ⟨h.writeAll_next _ _ h3, h.writeAll_ok _ _ h3⟩
        · rw [if_neg h4]; exact ⟨h3, rfl⟩
    · rw [if_neg hc]
      refine ⟨defaultWriteAll_kept (Q := fun w : BufWriter c σ => P w.inner) (fun w buf hw => (hwrite w buf hw).1) hw, ?_⟩
      exact Reliable.loop (Q := fun w : BufWriter c σ => P w.inner) (fun w buf hw => (hwrite w buf hw).1)
        (fun w buf hw hb => (hwrite w buf hw).2 hb) hw
  exact ⟨fun w buf hw => (hwrite w buf hw).1, fun w hw => (hflush w hw).1, fun w buf hw => (hall w buf hw).1,
    fun w buf hw hb => (hwrite w buf hw).2 hb, fun w hw => (hflush w hw).2, fun w buf hw => (hall w buf hw).2⟩

theorem Spec.Reliable.writePieces_ok (h : Reliable c P) {s : σ} {ps : List Bytes} (hs : P s) :
    ∃ s', writePieces c s ps = (.ok (), s') ∧ P s' := by
  induction ps generalizing s with
  | nil => exact ⟨s, rfl, hs⟩
  | cons p ps ih =>
    have h1 := h.writeAll_ok s p hs
    have h2 := h.writeAll_next s p hs
    unfold writePieces
    rcases hw : writeAll c s p with ⟨r, s1⟩
    rw [hw] at h1 h2
    dsimp only at h1 h2
    subst h1
    exact ih h2

theorem Spec.Reliable.intoInner_ok (h : Reliable c P) {w : BufWriter c σ} (hs : P w.inner) :
    ∃ s, w.intoInner = .ok s ∧ P s := by
  unfold BufWriter.intoInner
  by_cases hc : c.std = true
  · rw [if_pos hc]
    have h1 := h.flushBuf_ok hs
    rcases hf : w.flushBuf with ⟨r, w'⟩
    rw [hf] at h1
    obtain ⟨h2, h3⟩ := h1
    dsimp only at h2 h3
    subst h2
    exact ⟨_, rfl, h3⟩
  · rw [if_neg hc]; exact ⟨_, rfl, hs⟩

theorem Spec.Reliable.serialize_ok (h : Reliable c P) {ρ : Type} (r : HttpRequest c ρ) {s : σ} (hs : P s) :
    ∃ o, r.serialize (BufWriter.new c s) = .ok o ∧ P o.socketOf := by
  obtain ⟨w, h1, h2⟩ := h.bufWriter.writePieces_ok (s := BufWriter.new c s) (ps := r.headPieces) hs
  unfold HttpRequest.serialize
  rw [h1]
  dsimp only
  by_cases hb : r.method.hasBody = true
  · rw [if_pos hb]; exact ⟨_, rfl, h2⟩
  · rw [if_neg hb]
    obtain ⟨t, h3, h4⟩ := h.intoInner_ok h2
    rw [h3]; exact ⟨_, rfl, h4⟩

theorem Spec.Reliable.complete_ok (h : Reliable c P) {o : OutgoingRequest c σ} (ho : P o.socketOf) :
    ∃ s, o.complete = .ok s ∧ P s := by
  unfold OutgoingRequest.complete
  cases o with
  | NoBody s =>
    have h1 := h.flush_ok s ho
    have h2 := h.flush_next s ho
    dsimp only
    rcases hf : flush s with ⟨r, s'⟩
    rw [hf] at h1 h2
    dsimp only at h1 h2
    subst h1
    exact ⟨_, rfl, h2⟩
  | WithBody b =>
    obtain ⟨w, h1, h2⟩ := h.bufWriter.writePieces_ok (s := b.socket) (ps := [b!"0\r\n\r\n"]) ho
    dsimp only
    rw [h1]
    dsimp only
    have h3 := h.bufWriter.flush_ok w h2
    have h4 := h.bufWriter.flush_next w h2
    rcases hf : flush w with ⟨r, w'⟩
    rw [hf] at h3 h4
    dsimp only at h3 h4
    subst h3
    dsimp only
    obtain ⟨t, h5, h6⟩ := h.intoInner_ok h4
    rw [h5]; exact ⟨_, rfl, h6⟩

theorem Spec.Reliable.outgoingBody (h : Reliable c P) {b : OutgoingBody c σ} {buf : Bytes} (hb : P b.socket.inner) :
    ∃ b', b.writeImpl buf = (.ok buf.length, b') ∧ P b'.socket.inner := by
  unfold OutgoingBody.writeImpl
  by_cases h0 : buf.length = 0
  · rw [if_pos h0]; exact ⟨b, by rw [h0], hb⟩
  · rw [if_neg h0]
    obtain ⟨w1, h1, h2⟩ := h.bufWriter.writePieces_ok (s := b.socket) (ps := [showHex buf.length, b!"\r\n"]) hb
    rw [h1]
    dsimp only
    have h3 := h.bufWriter.writeAll_ok w1 buf h2
    have h4 := h.bufWriter.writeAll_next w1 buf h2
    rcases hw : writeAll c w1 buf with ⟨r, w2⟩
    rw [hw] at h3 h4
    dsimp only at h3 h4
    subst h3
    dsimp only
    obtain ⟨w3, h5, h6⟩ := h.bufWriter.writePieces_ok (s := w2) (ps := [b!"\r\n"]) h4
    rw [h5]
    exact ⟨_, rfl, h6⟩

/-- A request with a body is itself a reliable writer. -/
theorem Spec.Reliable.outgoing (h : Reliable c P) :
    Reliable c fun o : OutgoingRequest c σ => P o.socketOf ∧ ∃ b, o = .WithBody b := by
  have hw : ∀ (o : OutgoingRequest c σ) buf, (P o.socketOf ∧ ∃ b, o = .WithBody b) →
      (write o buf).1 = .ok buf.length ∧ P (write o buf).2.socketOf ∧ ∃ b, (write o buf).2 = .WithBody b := by
    rintro o buf ⟨ho, b, rfl⟩
    obtain ⟨b', h1, h2⟩ := h.outgoingBody (b := b) (buf := buf) ho
    show (OutgoingRequest.writeImpl (.WithBody b) buf).1 = _ ∧ P (OutgoingRequest.writeImpl (.WithBody b) buf).2.socketOf ∧
      ∃ b', (OutgoingRequest.writeImpl (.WithBody b) buf).2 = .WithBody b'
    unfold OutgoingRequest.writeImpl
    dsimp only
    rw [h1]
    exact ⟨rfl, h2, b', rfl⟩
  have hw' : ∀ (o : OutgoingRequest c σ) buf, (P o.socketOf ∧ ∃ b, o = .WithBody b) → buf ≠ [] →
      (∃ k, (write o buf).1 = .ok (k + 1)) ∨ ∃ e, (write o buf).1 = .error e ∧ Retried c e := by
    intro o buf ho hb
    refine .inl ⟨buf.length - 1, ?_⟩
    rw [(hw o buf ho).1]
    have := List.length_pos_iff.2 hb
    congr 1
    omega
  have hf : ∀ (o : OutgoingRequest c σ), (P o.socketOf ∧ ∃ b, o = .WithBody b) →
      (flush o).1 = .ok () ∧ P (flush o).2.socketOf ∧ ∃ b, (flush o).2 = .WithBody b := by
    rintro o ⟨ho, b, rfl⟩
    exact ⟨h.bufWriter.flush_ok b.socket ho, h.bufWriter.flush_next b.socket ho, _, rfl⟩
  exact ⟨fun o buf ho => (hw o buf ho).2, fun o ho => (hf o ho).2,
    fun o buf ho => defaultWriteAll_kept (Q := fun o : OutgoingRequest c σ => P o.socketOf ∧ ∃ b, o = .WithBody b)
      (fun o buf ho => (hw o buf ho).2) ho,
    hw', fun o ho => (hf o ho).1,
    fun o buf ho => Reliable.loop (Q := fun o : OutgoingRequest c σ => P o.socketOf ∧ ∃ b, o = .WithBody b)
      (fun o buf ho => (hw o buf ho).2) hw' ho⟩

/-- Any schedule of writes and flushes on a request with a body. -/
theorem Spec.Reliable.perform_ok (h : Reliable c P) {b : OutgoingBody c σ} {cs : List WCall} (hb : P b.socket.inner) :
    ∃ b', perform b cs = (true, b') ∧ P b'.socket.inner := by
  induction cs generalizing b with
  | nil => exact ⟨b, rfl, hb⟩
  | cons cl cs ih =>
    cases cl with
    | write buf =>
      obtain ⟨b1, h1, h2⟩ := h.outgoingBody (b := b) (buf := buf) hb
      rw [perform]
      rw [show FiniteWriter.write b buf = b.writeImpl buf from rfl, h1]
      dsimp only
      rw [if_pos rfl]
      exact ih h2
    | flush =>
      rw [perform]
      have h1 := h.bufWriter.flush_ok b.socket hb
      have h2 := h.bufWriter.flush_next b.socket hb
      rw [show FiniteWriter.flush b = ((flush b.socket).1, ⟨(flush b.socket).2⟩) from rfl, h1]
      exact ih h2

/-- Delivery after some bytes. -/
theorem delivers_after_bytes {c : Cfg} {t' : List Ev} (he : Ended c t') :
    ∀ (x : Bytes) t bs, Delivers c (x.map .byte ++ t) bs t' → ∃ bs', Delivers c t bs' t' := by
  intro x
  induction x with
  | nil => intro t bs h; exact ⟨bs, h⟩
  | cons b x ih =>
    intro t bs h
    generalize hg : (b :: x).map Ev.byte ++ t = u at h
    cases h with
    | nil =>
      obtain ⟨e', h3, h4⟩ := he (.byte b) (by rw [← hg]; simp)
      simp at h3
    | byte b' h =>
      simp only [List.map_cons, List.cons_append, List.cons.injEq] at hg
      rw [← hg.2] at h
      exact ih t _ h
    | retry _ _ => simp at hg

theorem Spec.Reliable.copy_ok (h : Reliable c P) {ρ : Type} [LawfulReader ρ] {r : ρ} {s : σ} {n : Nat} (hs : P s)
    {bs : Bytes} {t' : List Ev} (hd : Delivers c (trace r) bs t') (he : Ended c t') :
    ∃ k r' s', copy c r s n = (.ok k, r', s') ∧ P s' := by
  have hgood : ∀ t bs t', Delivers c t bs t' → Ended c t' → ∀ e t'', t = .fault e :: t'' → Retried c e := by
    intro t bs t' h1 h2 e t'' ht
    cases h1 with
    | nil =>
      obtain ⟨e', h3, h4⟩ := h2 (.fault e) (by rw [ht]; simp)
      simp only [Ev.fault.injEq] at h3
      rw [h3]; exact h4
    | byte => simp at ht
    | retry h3 => simp only [List.cons.injEq, Ev.fault.injEq] at ht; rw [← ht.1]; exact h3
  fun_induction copy c r s n generalizing bs t' with
  | case1 r w n r1 hr => exact ⟨_, _, _, rfl, hs⟩
  | case2 r w n b bs' r1 hr w1 hw ih =>
    have h2 := h.writeAll_next w (b :: bs') hs
    rw [hw] at h2
    have ht := trace_of_data (copySize_pos _ _) (by simp) hr
    rw [ht] at hd
    obtain ⟨bs2, hd'⟩ := delivers_after_bytes he _ _ _ hd
    exact ih h2 hd' he
  | case3 r w n b bs' r1 hr e1 w1 hw =>
    have h2 := h.writeAll_ok w (b :: bs') hs
    rw [hw] at h2
    simp at h2
  | case4 r w n e r1 hr hret ih =>
    have := LawfulReader.read_step r _ (copySize_pos c r)
    rw [hr] at this
    have ht := this.error_inv
    dsimp only at ht
    rw [ht] at hd
    generalize hg : Ev.fault e :: trace r1 = u at hd
    cases hd with
    | nil =>
      refine ih hs (bs := []) (.nil (trace r1)) ?_
      intro ev hev
      exact he ev (by rw [← hg]; simp [hev])
    | byte => simp at hg
    | retry h3 h4 =>
      simp only [List.cons.injEq] at hg
      rw [← hg.2] at h4
      exact ih hs h4 he
  | case5 r w n e r1 hr hre =>
    have := LawfulReader.read_step r _ (copySize_pos c r)
    rw [hr] at this
    have ht := this.error_inv
    exact absurd ((retries_iff).2 (hgood _ _ _ hd he _ _ ht)) hre

/-- Copying into the body of a request writes what was read, a chunk for each read. -/
theorem Spec.Reliable.copy_performs (h : Reliable c P) {ρ : Type} [LawfulReader ρ] {r r' : ρ} {b : OutgoingBody c σ}
    {o' : OutgoingRequest c σ} {n k : Nat} (hb : P b.socket.inner) (hc : copy c r (.WithBody b) n = (.ok k, r', o')) :
    ∃ (bufs : List Bytes) (b' : OutgoingBody c σ) (t' : List Ev), o' = .WithBody b' ∧
      perform b (bufs.map .write) = (true, b') ∧ Delivers c (trace r) bufs.flatten t' ∧ Ended c t' ∧
      ∀ buf ∈ bufs, buf.length < 2 ^ 64 := by
  generalize ho : OutgoingRequest.WithBody b = o at hc
  fun_induction copy c r o n generalizing b with
  | case1 r w n r1 hr =>
    simp only [Prod.mk.injEq] at hc
    have := LawfulReader.read_step r _ (copySize_pos c r)
    rw [hr] at this
    refine ⟨[], b, trace r, by rw [← hc.2.2, ho], rfl, .nil _, ?_, by simp⟩
    rcases this.ok_inv with ⟨_, h1, _⟩ | ⟨h1, _⟩
    · rw [h1]; simp [Ended]
    · exact absurd rfl h1
  | case2 r w n b0 bs r1 hr w1 hw ih =>
    subst ho
    obtain ⟨b1, g1, g2⟩ := h.outgoingBody (b := b) (buf := b0 :: bs) hb
    have hw1 : w1 = .WithBody b1 := by
      have : writeAll c (OutgoingRequest.WithBody b) (b0 :: bs) = (.ok (), .WithBody b1) := by
        show defaultWriteAll c (OutgoingRequest.WithBody b) (b0 :: bs) = _
        have hwr : write (OutgoingRequest.WithBody b) (b0 :: bs) = (.ok (bs.length + 1), .WithBody b1) := by
          show OutgoingRequest.writeImpl (.WithBody b) (b0 :: bs) = _
          unfold OutgoingRequest.writeImpl
          dsimp only
          rw [g1]
          rfl
        have hl : writeLoop c (OutgoingRequest.WithBody b) (b0 :: bs) = (.ok (), [], .WithBody b1) := by
          rw [writeLoop, dif_neg (by simp)]
          split
          · rename_i heq; rw [hwr] at heq; simp at heq
          · rename_i j s2 heq
            rw [hwr] at heq
            simp only [Prod.mk.injEq, Except.ok.injEq] at heq
            rw [← heq.2, writeLoop, dif_pos (by rw [show j + 1 = bs.length + 1 from heq.1.symm]; simp)]
          · rename_i heq; rw [hwr] at heq; simp at heq
        unfold defaultWriteAll
        rw [hl]
      rw [hw] at this
      exact (Prod.mk.inj this).2
    obtain ⟨bufs, b', t', f1, f2, f3, f4, f5⟩ := ih g2 hw1.symm hc
    have ht := trace_of_data (copySize_pos _ _) (by simp) hr
    refine ⟨(b0 :: bs) :: bufs, b', t', f1, ?_, ?_, f4, ?_⟩
    · rw [List.map_cons, perform]
      rw [show write b (b0 :: bs) = (.ok (b0 :: bs).length, b1) from g1]
      simpa using f2
    · rw [ht, List.flatten_cons]; exact (delivers_map c (b0 :: bs) _).append f3
    · intro buf hbuf
      rcases List.mem_cons.1 hbuf with rfl | hbuf
      · have := LawfulReader.read_step r _ (copySize_pos c r)
        rw [hr] at this
        rcases this.ok_inv with ⟨h1, _⟩ | ⟨_, h1, _⟩
        · simp at h1
        · exact Nat.lt_of_le_of_lt h1 (copySize_lt c r)
      · exact f5 buf hbuf
  | case3 r w n b0 bs r1 hr e1 w1 hw => simp at hc
  | case4 r w n e r1 hr hret ih =>
    obtain ⟨bufs, b', t', f1, f2, f3, f4, f5⟩ := ih hb ho hc
    have := LawfulReader.read_step r _ (copySize_pos c r)
    rw [hr] at this
    have ht := this.error_inv
    dsimp only at ht
    rw [ht]
    cases hf : bufs.flatten with
    | nil =>
      rw [hf] at f3
      have hn : Ended c (trace r1) := by
        generalize hz : ([] : Bytes) = z at f3
        clear ht hr this
        generalize trace r1 = u at f3 ⊢
        cases f3 with
        | nil => exact f4
        | byte => simp at hz
        | retry => simp at hz
      refine ⟨bufs, b', _, f1, f2, by rw [hf]; exact .nil _, ?_, f5⟩
      intro ev hev
      rcases List.mem_cons.1 hev with rfl | hev
      · exact ⟨e, rfl, retries_iff.1 hret⟩
      · exact hn ev hev
    | cons x xs =>
      rw [hf] at f3
      exact ⟨bufs, b', t', f1, f2, by rw [hf]; exact .retry (retries_iff.1 hret) f3, f4, f5⟩
  | case5 r w n e r1 hr hre => simp at hc

end

end HttpIo
