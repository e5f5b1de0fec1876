import Verif.Spec.SendFails
import Verif.Props.Client
import Verif.Props.Breaks

/-! C93: what cannot be sent is reported as what failed. -/

namespace HttpIo
open Spec

section
variable {c : Cfg} {σ ρ τ : Type} [Writer σ] {P : σ → Prop} {F : Err → Prop}

theorem Spec.FailsWith.kept (h : FailsWith c P F) : Kept P := ⟨h.write_next, h.flush_next, h.writeAll_next⟩

theorem writeLoop_fails {σ : Type} [FiniteWriter σ] {P : σ → Prop} (hk : ∀ s buf, P s → P (write s buf).2)
    (hw : ∀ (s : σ) (buf : Bytes) (e : Err), P s → (write s buf).1 = .error e → F e) {s : σ} (hs : P s)
    {buf : Bytes} {e : Err} (h : (writeLoop c s buf).1 = .error e) : F e ∨ e = tookNothing c := by
  fun_induction writeLoop c s buf with
  | case1 s => simp at h
  | case2 s buf hb s1 h1 => simp only [Except.error.injEq] at h; exact .inr h.symm
  | case3 s buf hb k s1 h1 ih => have := hk s buf hs; rw [h1] at this; exact ih this h
  | case4 s buf hb e1 s1 h1 hr ih => have := hk s buf hs; rw [h1] at this; exact ih this h
  | case5 s buf hb e1 s1 h1 hr =>
    simp only [Except.error.injEq] at h
    left; subst h; exact hw s buf _ hs (by rw [h1])

theorem flushBuf_fails (h : FailsWith c P F) {w : BufWriter c σ} (hw : P w.inner) {e : Err} (he : w.flushBuf.1 = .error e) :
    F e ∨ e = tookNothing c := writeLoop_fails h.write_next h.write_err hw he

/-- A buffered writer over it. -/
theorem Spec.FailsWith.bufWriter (h : FailsWith c P F) :
    FailsWith c (fun w : BufWriter c σ => P w.inner) fun e => F e ∨ e = tookNothing c := by
  have hroom : ∀ (w : BufWriter c σ) (p : Prop) [Decidable p] (r : Except Err Unit) (w' : BufWriter c σ), P w.inner →
      (if p then w.flushBuf else (.ok (), w)) = (r, w') → P w'.inner ∧ ∀ e, r = .error e → F e ∨ e = tookNothing c := by
    intro w p _ r w' hw he
    split at he
    · have h1 := h.kept.flushBuf hw
      rw [he] at h1
      exact ⟨h1, fun e hr => flushBuf_fails h hw (by rw [he, hr])⟩
    · simp only [Prod.mk.injEq] at he
      rw [← he.1, ← he.2]
      exact ⟨hw, by simp⟩
  have hwr : ∀ (w : BufWriter c σ) (buf : Bytes) (e : Err), P w.inner → (w.writeImpl buf).1 = .error e →
      F e ∨ e = tookNothing c := by
    intro w buf e hw he
    unfold BufWriter.writeImpl at he
    split at he
    · split at he
      · simp at he
      · split at he
        · rename_i e1 w1 heq
          simp only [Except.error.injEq] at he
          subst he; exact (hroom _ _ _ _ hw heq).2 _ rfl
        · rename_i w1 heq
          split at he
          · exact .inl (h.write_err _ _ _ (hroom _ _ _ _ hw heq).1 he)
          · simp at he
    · exact .inl (h.write_err _ _ _ hw he)
  have hk := h.kept.bufWriter (c := c)
  refine ⟨hk.write, hk.flush, hk.writeAll, hwr, ?_, ?_⟩
  · intro w e hw he
    replace he : w.flushImpl.1 = .error e := he
    unfold BufWriter.flushImpl at he
    have h1 := h.kept.flushBuf hw
    split at he
    · split at he
      · rename_i e1 w1 heq
        simp only [Except.error.injEq] at he
        subst he; exact flushBuf_fails h hw (by rw [heq])
      · rename_i w1 heq
        rw [heq] at h1
        exact .inl (h.flush_err _ _ h1 he)
    · exact .inl (h.flush_err _ _ hw he)
  · intro w buf e hw he
    left
    replace he : (w.writeAllImpl buf).1 = .error e := he
    unfold BufWriter.writeAllImpl at he
    split at he
    · split at he
      · simp at he
      · split at he
        · rename_i e1 w1 heq
          simp only [Except.error.injEq] at he
          subst he; exact (hroom _ _ _ _ hw heq).2 _ rfl
        · rename_i w1 heq
          split at he
          · exact h.writeAll_err _ _ _ (hroom _ _ _ _ hw heq).1 he
          · simp at he
    · unfold defaultWriteAll at he
      rcases writeLoop_fails (c := c) (F := fun e => F e ∨ e = tookNothing c) (σ := BufWriter c σ)
        (P := fun w => P w.inner) hk.write hwr hw he with h | h
      · exact h
      · exact .inr h

theorem Spec.FailsWith.writePieces (h : FailsWith c P F) {s : σ} (hs : P s) {ps : List Bytes} {e : Err}
    (he : (writePieces c s ps).1 = .error e) : F e ∨ e = tookNothing c := by
  induction ps generalizing s with
  | nil => simp [HttpIo.writePieces] at he
  | cons p ps ih =>
    unfold HttpIo.writePieces at he
    have h1 := h.writeAll_next c s p hs
    rcases hw : writeAll c s p with ⟨e1 | _, s1⟩ <;> rw [hw] at he h1
    · simp only [Except.error.injEq] at he
      subst he; exact h.writeAll_err s p _ hs (by rw [hw])
    · exact ih h1 he

theorem Spec.FailsWith.bufPieces (h : FailsWith c P F) {w : BufWriter c σ} (hw : P w.inner) {ps : List Bytes} {e : Err}
    (he : (HttpIo.writePieces c w ps).1 = .error e) : F e ∨ e = tookNothing c := by
  rcases h.bufWriter.writePieces hw he with h | h
  · exact h
  · exact .inr h

theorem Spec.FailsWith.outgoingBody (h : FailsWith c P F) {b : OutgoingBody c σ} (hb : P b.socket.inner) {buf : Bytes} {e : Err}
    (he : (b.writeImpl buf).1 = .error e) : F e ∨ e = tookNothing c := by
  have hk := h.kept.bufWriter (c := c)
  unfold OutgoingBody.writeImpl at he
  split at he
  · simp at he
  · have h1 := hk.writePieces (c := c) (ps := [showHex buf.length, b!"\r\n"]) hb
    split at he <;> rename_i heq <;> rw [heq] at h1
    · simp only [Except.error.injEq] at he
      subst he; exact h.bufPieces hb (by rw [heq])
    · rename_i w1
      have h2 := hk.writeAll c w1 buf h1
      split at he <;> rename_i heq <;> rw [heq] at h2
      · simp only [Except.error.injEq] at he
        subst he
        rcases h.bufWriter.writeAll_err _ _ _ h1 (by rw [heq]) with h | h
        · exact h
        · exact .inr h
      · split at he
        · rename_i e1 w1 heq
          simp only [Except.error.injEq] at he
          subst he; exact h.bufPieces h2 (by rw [heq])
        · simp at he

/-- Flushing leaves nothing that `into_inner` would have to write. -/
theorem intoInner_flushed {w w' : BufWriter c σ} (h : flush w = (.ok (), w')) : ∃ s, w'.intoInner = .ok s := by
  replace h : w.flushImpl = (.ok (), w') := h
  unfold BufWriter.flushImpl at h
  unfold BufWriter.intoInner
  split at h
  · rename_i hs
    split at h
    · simp at h
    · rename_i w1 heq
      rw [if_pos hs]
      rcases hf : flush w1.inner with ⟨r, i⟩
      rw [hf] at h
      simp only [Prod.mk.injEq] at h
      have hb : w1.buf = [] := by
        unfold BufWriter.flushBuf at heq
        rcases hl : writeLoop c w.inner w.buf with ⟨r', rest, s1⟩
        rw [hl] at heq
        simp only [Prod.mk.injEq] at heq
        rw [← heq.2]
        have key : ∀ (s : σ) (buf : Bytes), (writeLoop c s buf).1 = .ok () → (writeLoop c s buf).2.1 = [] := by
          intro s buf
          fun_induction writeLoop c s buf <;> simp_all
        have := key w.inner w.buf (by rw [hl]; exact heq.1)
        rw [hl] at this; exact this
      rw [← h.2]
      unfold BufWriter.flushBuf
      dsimp only
      rw [hb]
      unfold writeLoop
      rw [dif_pos rfl]
      exact ⟨_, rfl⟩
  · rename_i hs
    rw [if_neg hs]; exact ⟨_, rfl⟩

theorem Spec.FailsWith.complete (h : FailsWith c P F) {o : OutgoingRequest c σ} (ho : P o.socketOf) {e : Err} {s : σ}
    (he : o.complete = .error (e, s)) : F e ∨ e = tookNothing c := by
  unfold OutgoingRequest.complete at he
  cases o with
  | NoBody s1 =>
    dsimp only at he
    rcases hf : HttpIo.flush s1 with ⟨e1 | _, s2⟩ <;> rw [hf] at he <;> simp at he
    left; rw [← he.1]; exact h.flush_err s1 _ ho (by rw [hf])
  | WithBody b =>
    dsimp only at he
    have h1 := (h.kept.bufWriter (c := c)).writePieces (c := c) (s := b.socket) (ps := [b!"0\r\n\r\n"]) ho
    rcases hp : HttpIo.writePieces c b.socket [b!"0\r\n\r\n"] with ⟨e1 | _, w⟩ <;> rw [hp] at he h1
    · simp at he; rw [← he.1]; exact h.bufPieces (w := b.socket) ho (by rw [hp])
    · dsimp only at he
      rcases hf : HttpIo.flush w with ⟨e1 | _, w2⟩ <;> rw [hf] at he
      · simp at he; rw [← he.1]; exact h.bufWriter.flush_err w _ h1 (by rw [hf])
      · obtain ⟨s1, hs⟩ := intoInner_flushed hf
        dsimp only at he
        rw [hs] at he
        simp at he

theorem Spec.FailsWith.attempts (h : FailsWith c P F) {b : OutgoingBody c σ} (hb : P b.socket.inner) {cs : List WCall} {e : Err}
    (he : .error e ∈ (attempt (OutgoingRequest.WithBody b) cs).1) : F e ∨ e = tookNothing c := by
  induction cs generalizing b with
  | nil => simp [Spec.attempt] at he
  | cons cl cs ih =>
    cases cl with
    | write buf =>
      have hw : HttpIo.write (OutgoingRequest.WithBody b) buf = ((b.writeImpl buf).1, .WithBody (b.writeImpl buf).2) := rfl
      unfold Spec.attempt at he
      rw [hw] at he
      rcases List.mem_cons.1 he with he | he
      · exact h.outgoingBody hb he.symm
      · exact ih (h.kept.outgoingBody hb) he
    | flush =>
      have hw : HttpIo.flush (OutgoingRequest.WithBody b) = ((b.flushImpl).1, .WithBody (b.flushImpl).2) := rfl
      unfold Spec.attempt at he
      rw [hw] at he
      rcases List.mem_cons.1 he with he | he
      · have : (HttpIo.flush b.socket).1 = .error e := by
          unfold OutgoingBody.flushImpl at he
          rcases hf : HttpIo.flush b.socket with ⟨r, w⟩
          rw [hf] at he
          cases r <;> simp_all [Except.map]
        exact h.bufWriter.flush_err _ _ hb this
      · exact ih ((h.kept.bufWriter (c := c)).flush b.socket hb) he

/-- Requests with a body (DELETE, POST, PUT): whatever error `serialize`, `write`, `flush` or the sending half of `finish`
gives is an error that the transport gave, as it was, or says that the transport takes nothing. -/
theorem C93_upload_partial (h : FailsWith c P F) (r : HttpRequest c τ) (hm : r.method = .Delete ∨ r.method = .Post ∨ r.method = .Put)
    (s : σ) (hs : P s) : match r.serialize (BufWriter.new c s) with
      | .error (e, _) => F e ∨ e = tookNothing c
      | .ok o => ∀ cs, (∀ e, .error e ∈ (attempt o cs).1 → F e ∨ e = tookNothing c) ∧
          ∀ e s', (attempt o cs).2.complete = .error (e, s') → F e ∨ e = tookNothing c := by
  have h1 := (h.kept.bufWriter (c := c)).writePieces (c := c) (s := BufWriter.new c s) (ps := r.headPieces) hs
  unfold HttpRequest.serialize
  have hb : r.method.hasBody = true := by rcases hm with h | h | h <;> rw [h] <;> rfl
  rcases hp : writePieces c (BufWriter.new c s) r.headPieces with ⟨e | _, w⟩
  · exact h.bufPieces (w := BufWriter.new c s) hs (by rw [hp])
  · dsimp only
    rw [hp] at h1
    rw [if_pos hb]
    intro cs
    exact ⟨fun e he => h.attempts (b := ⟨w⟩) h1 he,
      fun e s' he => h.complete (h.kept.outgoing.attempt (s := .WithBody ⟨w⟩) h1) he⟩

/-- Requests without a body: the same, or, with `std`, an error of kind `Other`. -/
theorem C93_no_body_partial (h : FailsWith c P F) (r : HttpRequest c τ)
    (hm : ¬ (r.method = .Delete ∨ r.method = .Post ∨ r.method = .Put)) (s : σ) (hs : P s) :
    match r.serialize (BufWriter.new c s) with
      | .error (e, _) => F e ∨ e = tookNothing c ∨ (c.std = true ∧ e = .io (.other 0))
      | .ok o => ∀ e s', o.complete = .error (e, s') → F e := by
  have h1 := (h.kept.bufWriter (c := c)).writePieces (c := c) (s := BufWriter.new c s) (ps := r.headPieces) hs
  unfold HttpRequest.serialize
  have hb : ¬ r.method.hasBody = true := by
    intro hb; apply hm
    revert hb
    cases r.method <;> simp [HttpMethod.hasBody]
  rcases hp : writePieces c (BufWriter.new c s) r.headPieces with ⟨e | _, w⟩
  · rcases h.bufPieces (w := BufWriter.new c s) hs (by rw [hp]) with h | h
    · exact .inl h
    · exact .inr (.inl h)
  · dsimp only
    rw [hp] at h1
    rw [if_neg hb]
    have h2 := h.kept.intoInner h1
    rcases hi : w.intoInner with ⟨e, w1⟩ | s1
    · right; right
      refine ⟨?_, rfl⟩
      unfold BufWriter.intoInner at hi
      by_cases hs : c.std = true
      · exact hs
      · rw [if_neg hs] at hi; simp at hi
    · rw [hi] at h2
      intro e s' he
      unfold OutgoingRequest.complete at he
      dsimp only at he
      rcases hf : flush s1 with ⟨e1 | _, s2⟩ <;> rw [hf] at he <;> simp at he
      rw [← he.1]; exact h.flush_err s1 _ h2 (by rw [hf])

/-- Short pieces stay in the buffer. -/
theorem writePieces_short (hs : c.std = true) {w : BufWriter c σ} {ps : List Bytes} (hl : w.buf.length + ps.flatten.length < bufCap) :
    writePieces c w ps = (.ok (), { w with buf := w.buf ++ ps.flatten }) := by
  induction ps generalizing w with
  | nil => simp [writePieces]
  | cons p ps ih =>
    simp only [List.flatten_cons, List.length_append] at hl
    have : writeAll c w p = (.ok (), { w with buf := w.buf ++ p }) := by
      show w.writeAllImpl p = _
      unfold BufWriter.writeAllImpl
      rw [if_pos hs, if_pos (by omega)]
    unfold writePieces
    rw [this]
    dsimp only
    rw [ih (by simp only [List.length_append]; omega)]
    simp

/-- And so it is with `std` for every request without a body whose head is shorter than 8 KiB: what the transport says
when the head is sent is lost, the caller gets kind `Other` (`src/protocol.rs:1901`, `src/error.rs:60-68`). -/
theorem C93_kind_lost (hs : c.std = true) (r : HttpRequest c τ) (hm : ¬ (r.method = .Delete ∨ r.method = .Post ∨ r.method = .Put))
    (hv : r.version = ⟨1, 1⟩) (hl : (requestHead r.method r.uri r.headers.entries).length < 8192) (s s' : σ) (e : Err)
    (he : ¬ Retried c e) (hw : write s (requestHead r.method r.uri r.headers.entries) = (.error e, s')) :
    ∃ s'', r.serialize (BufWriter.new c s) = .error (.io (.other 0), s'') := by
  have hb : ¬ r.method.hasBody = true := by
    intro hb; apply hm
    revert hb
    cases r.method <;> simp [HttpMethod.hasBody]
  have hh := request_headPieces r hv
  unfold HttpRequest.serialize
  rw [writePieces_short hs (by rw [hh]; simpa [BufWriter.new, bufCap] using hl), hh]
  dsimp only
  rw [if_neg hb]
  have hne : requestHead r.method r.uri r.headers.entries ≠ [] := by unfold requestHead; simp
  have : ∃ w, (BufWriter.mk s (requestHead r.method r.uri r.headers.entries) : BufWriter c σ).intoInner = .error (e, w) := by
    unfold BufWriter.intoInner BufWriter.flushBuf
    rw [if_pos hs]
    dsimp only
    unfold writeLoop
    rw [dif_neg hne]
    split <;> rename_i heq <;> rw [hw] at heq <;> dsimp only at heq <;> rw [if_neg (mt retries_iff.1 he)] at heq <;>
      simp only [Prod.mk.injEq, reduceCtorEq, false_and, Except.error.injEq] at heq
    rw [← heq.1]
    exact ⟨_, rfl⟩
  obtain ⟨w, hw⟩ := this
  simp only [BufWriter.new, List.nil_append]
  rw [hw]
  exact ⟨_, rfl⟩

/-- A response: all errors of `serialize` are the transport's. -/
theorem C93_response (h : FailsWith c P F) (r : HttpResponse c τ) (s : σ) (hs : P s) (e : Err) (he : (r.serialize s).1 = .error e) :
    F e ∨ e = tookNothing c := h.writePieces hs he

end

section
variable {c : Cfg} {σ ρ τ : Type} [LawfulWriter σ] [LawfulReader ρ] {P : σ → Prop} {F : Err → Prop}

theorem Spec.FailsWith.duplex (h : FailsWith c P F) : FailsWith c (fun d : Duplex ρ σ => P d.wr) F :=
  ⟨fun d buf hd => h.write_next d.wr buf hd, fun d hd => h.flush_next d.wr hd, fun c d buf hd => h.writeAll_next c d.wr buf hd,
    fun d buf e hd he => h.write_err d.wr buf e hd he, fun d e hd he => h.flush_err d.wr e hd he,
    fun d buf e hd he => h.writeAll_err d.wr buf e hd he⟩

/-- Whatever was done with the request before: the errors of `finish` are those that the transport gave when the rest was
sent, those that it gives when it is read, and faults of the response. -/
theorem C93_finish [CaseMap] (h : FailsWith c P F) (o : OutgoingRequest c (Duplex ρ σ)) (d' : Duplex ρ σ) (ho : P o.socketOf.wr)
    (e : Err) (he : o.finish = (.err e, d')) :
    F e ∨ e = tookNothing c ∨ .fault e ∈ trace o.socketOf.rd ∨ Malformed e := by
  have h1 := h.duplex (ρ := ρ)
  unfold OutgoingRequest.finish at he
  have h2 := (duplex_kept (σ := σ) o.socketOf.rd).complete (o := o) rfl
  rcases hc : o.complete with ⟨e1, s1⟩ | d1 <;> rw [hc] at he h2
  · simp only [Prod.mk.injEq, Res.err.injEq] at he
    rcases h1.complete ho hc with h | h
    · left; rw [← he.1]; exact h
    · right; left; rw [← he.1]; exact h
  · dsimp only at h2 he
    rcases C91_sources c d1 e (.inr (by rw [he])) with h | h
    · right; right; left
      rw [show trace d1 = trace d1.rd from rfl, h2] at h; exact h
    · exact .inr (.inr (.inr h))

end

theorem sink_fails (c : Cfg) (F : Err → Prop) : FailsWith c (fun s : Sink => ∀ e, .fault e ∈ s.plan → F e) F := by
  have hw : ∀ (s : Sink) buf, (∀ e, .fault e ∈ s.plan → F e) →
      (∀ e, .fault e ∈ (write s buf).2.plan → F e) := by
    intro s buf hs e
    show .fault e ∈ (s.writeImpl buf).2.plan → F e
    unfold Sink.writeImpl
    split <;> rename_i heq <;> intro he
    · exact hs e he
    · exact hs e (by rw [heq]; simp [he])
    · exact hs e (by rw [heq]; simp [he])
  have he : ∀ (s : Sink) buf e, (∀ e, .fault e ∈ s.plan → F e) → (write s buf).1 = .error e → F e := by
    intro s buf e hs
    show (s.writeImpl buf).1 = .error e → F e
    unfold Sink.writeImpl
    split <;> rename_i heq <;> intro he <;> simp at he
    subst he
    exact hs _ (by rw [heq]; simp)
  refine ⟨hw, fun s hs => hs, fun c s buf hs => defaultWriteAll_kept (Q := fun s : Sink => ∀ e, .fault e ∈ s.plan → F e) hw hs, he, ?_, ?_⟩
  · intro s e hs he; cases he
  · intro s buf e hs h
    exact writeLoop_fails (P := fun s : Sink => ∀ e, .fault e ∈ s.plan → F e) hw he hs h

/-- The property as stated is false: with `std`, a GET over a connection that was reset does not say so. -/
theorem C93_false : ¬ ∀ (_ : CaseMap) (c : Cfg) (r : HttpRequest c (BufReader c EmptyReader)) (s s' : Sink) (e : Err),
    r.serialize (BufWriter.new c s) = .error (e, s') → .fault e ∈ s.plan ∨ e = tookNothing c := by
  intro h
  let _ := asciiCase
  have key : (match (HttpRequest.new ⟨true⟩ .Get b!"/").serialize
      (BufWriter.new ⟨true⟩ (Sink.mk [] 0 [.fault (.io (.other 104))])) with
      | .ok _ => false
      | .error (e, _) => decide (e = .io (.other 0))) = true := by
    decide +kernel
  split at key
  · cases key
  · rename_i e s' heq
    have := h asciiCase _ _ _ _ _ heq
    simp only [decide_eq_true_eq] at key
    subst key
    simp [tookNothing] at this

/-- The witness is no accident: the conditions of `C93_kind_lost` and of the other theorems are those of every transport
whose first write fails. -/
example : let _ := asciiCase
    let s := Sink.mk [] 0 [.fault (.io (.other 104))]
    (∃ s', (HttpRequest.new ⟨true⟩ .Get b!"/").serialize (BufWriter.new ⟨true⟩ s) = .error (.io (.other 0), s')) ∧
    (∃ s', (HttpRequest.new ⟨false⟩ .Get b!"/").serialize (BufWriter.new ⟨false⟩ s) = .error (.io (.other 104), s')) ∧
    (∃ o, (HttpRequest.new ⟨true⟩ .Put b!"/").serialize (BufWriter.new ⟨true⟩ s) = .ok o ∧
      (attempt o [.write b!"a", .flush]).1 = [.ok 1, .error (.io (.other 104))] ∧
      ∃ s', o.complete = .error (.io (.other 104), s')) := by
  intro _ s
  refine ⟨?_, ?_, ?_⟩
  · refine C93_kind_lost rfl _ (by decide) rfl (by decide +kernel) s _ (.io (.other 104)) (by simp [Retried]) rfl
  · have key : (match (HttpRequest.new ⟨false⟩ .Get b!"/").serialize (BufWriter.new ⟨false⟩ s) with
        | .ok _ => false
        | .error (e, _) => decide (e = .io (.other 104))) = true := by decide +kernel
    split at key
    · cases key
    · rename_i e s' heq
      simp only [decide_eq_true_eq] at key
      exact ⟨s', by rw [heq, key]⟩
  · have key : (match (HttpRequest.new ⟨true⟩ .Put b!"/").serialize (BufWriter.new ⟨true⟩ s) with
        | .ok o => decide ((attempt o [.write b!"a", .flush]).1 = [.ok 1, .error (.io (.other 104))]) &&
            (match o.complete with
              | .ok _ => false
              | .error (e, _) => decide (e = .io (.other 104)))
        | .error _ => false) = true := by decide +kernel
    split at key
    · rename_i o heq
      simp only [Bool.and_eq_true, decide_eq_true_eq] at key
      refine ⟨o, heq, key.1, ?_⟩
      have k2 := key.2
      split at k2
      · cases k2
      · rename_i e s' h2
        simp only [decide_eq_true_eq] at k2
        exact ⟨s', by rw [h2, k2]⟩
    · cases key

end HttpIo
