import Verif.Spec.Unheard
import Verif.Spec.Pipes
import Verif.Lemmas.Kept
import Verif.Lemmas.Pipes

/-! Connections that take what is written to them in the same way cannot be told apart by what only writes. -/

namespace HttpIo
open Spec

/-- `R` relates writers on which every call gives the same result and leaves related writers. -/
structure Twins {σ τ : Type} [Writer σ] [Writer τ] (R : σ → τ → Prop) : Prop where
  write : ∀ s t buf, R s t → (write s buf).1 = (write t buf).1 ∧ R (write s buf).2 (write t buf).2
  flush : ∀ s t, R s t → (flush s).1 = (flush t).1 ∧ R (flush s).2 (flush t).2
  writeAll : ∀ c s t buf, R s t → (writeAll c s buf).1 = (writeAll c t buf).1 ∧ R (writeAll c s buf).2 (writeAll c t buf).2

/-- Outcomes of sending: the same error, or related values. -/
def TwinResult {α β σ τ : Type} (Q : α → β → Prop) (R : σ → τ → Prop) : Except (Err × σ) α → Except (Err × τ) β → Prop
  | .ok a, .ok b => Q a b
  | .error (e, s), .error (e', t) => e = e' ∧ R s t
  | _, _ => False

theorem writeLoop_twins {σ τ : Type} [FiniteWriter σ] [FiniteWriter τ] {R : σ → τ → Prop}
    (h : ∀ s t buf, R s t → (write s buf).1 = (write t buf).1 ∧ R (write s buf).2 (write t buf).2) {c : Cfg} {s : σ} {t : τ}
    {buf : Bytes} (hs : R s t) : (writeLoop c s buf).1 = (writeLoop c t buf).1 ∧
      (writeLoop c s buf).2.1 = (writeLoop c t buf).2.1 ∧ R (writeLoop c s buf).2.2 (writeLoop c t buf).2.2 := by
  fun_induction writeLoop c s buf generalizing t with
  | case1 s => rw [writeLoop.eq_def c t]; rw [dif_pos rfl]; exact ⟨rfl, rfl, hs⟩
  | case2 s buf hb s1 hw =>
    have := h s t buf hs
    rw [hw] at this
    rw [writeLoop.eq_def c t, dif_neg hb]
    rcases hw' : write t buf with ⟨r, t1⟩
    rw [hw'] at this
    obtain ⟨h1, h2⟩ := this
    dsimp only at h1 h2
    subst h1
    exact ⟨rfl, rfl, h2⟩
  | case3 s buf hb k s1 hw ih =>
    have := h s t buf hs
    rw [hw] at this
    rw [writeLoop.eq_def c t, dif_neg hb]
    rcases hw' : write t buf with ⟨r, t1⟩
    rw [hw'] at this
    obtain ⟨h1, h2⟩ := this
    dsimp only at h1 h2
    subst h1
    exact ih h2
  | case4 s buf hb e s1 hw hr ih =>
    have := h s t buf hs
    rw [hw] at this
    rw [writeLoop.eq_def c t, dif_neg hb]
    rcases hw' : write t buf with ⟨r, t1⟩
    rw [hw'] at this
    obtain ⟨h1, h2⟩ := this
    dsimp only at h1 h2
    subst h1
    dsimp only
    rw [if_pos hr]
    exact ih h2
  | case5 s buf hb e s1 hw hr =>
    have := h s t buf hs
    rw [hw] at this
    rw [writeLoop.eq_def c t, dif_neg hb]
    rcases hw' : write t buf with ⟨r, t1⟩
    rw [hw'] at this
    obtain ⟨h1, h2⟩ := this
    dsimp only at h1 h2
    subst h1
    dsimp only
    rw [if_neg hr]
    exact ⟨rfl, rfl, h2⟩

theorem defaultWriteAll_twins {σ τ : Type} [FiniteWriter σ] [FiniteWriter τ] {R : σ → τ → Prop}
    (h : ∀ s t buf, R s t → (write s buf).1 = (write t buf).1 ∧ R (write s buf).2 (write t buf).2) {c : Cfg} {s : σ} {t : τ}
    {buf : Bytes} (hs : R s t) : (defaultWriteAll c s buf).1 = (defaultWriteAll c t buf).1 ∧
      R (defaultWriteAll c s buf).2 (defaultWriteAll c t buf).2 := by
  have := writeLoop_twins h (c := c) (buf := buf) hs
  exact ⟨this.1, this.2.2⟩

section
variable {c : Cfg} {σ τ : Type} [Writer σ] [Writer τ] {R : σ → τ → Prop}

/-- Buffering writers with the same buffer on top of related writers. -/
def BufWriter.Alike (R : σ → τ → Prop) (w : BufWriter c σ) (v : BufWriter c τ) : Prop := R w.inner v.inner ∧ w.buf = v.buf

theorem Twins.flushBuf (h : Twins R) {w : BufWriter c σ} {v : BufWriter c τ} (hs : w.Alike R v) :
    w.flushBuf.1 = v.flushBuf.1 ∧ w.flushBuf.2.Alike R v.flushBuf.2 := by
  have := writeLoop_twins h.write (c := c) (buf := w.buf) hs.1
  unfold BufWriter.flushBuf
  rw [← hs.2]
  exact ⟨this.1, this.2.2, this.2.1⟩

theorem Twins.dropped (h : Twins R) {w : BufWriter c σ} {v : BufWriter c τ} (hs : w.Alike R v) : R w.dropped v.dropped := by
  unfold BufWriter.dropped
  by_cases hc : c.std = true
  · rw [if_pos hc, if_pos hc]; exact (h.flushBuf hs).2.1
  · rw [if_neg hc, if_neg hc]; exact hs.1

theorem Twins.intoInner (h : Twins R) {w : BufWriter c σ} {v : BufWriter c τ} (hs : w.Alike R v) :
    TwinResult R (BufWriter.Alike (c := c) R) w.intoInner v.intoInner := by
  unfold BufWriter.intoInner
  by_cases hc : c.std = true
  · rw [if_pos hc, if_pos hc]
    have := h.flushBuf hs
    rcases hf : w.flushBuf with ⟨r, w'⟩
    rcases hf' : v.flushBuf with ⟨r', v'⟩
    rw [hf, hf'] at this
    obtain ⟨h1, h2⟩ := this
    dsimp only at h1 h2
    subst h1
    cases r with
    | error e => exact ⟨rfl, h2⟩
    | ok _ => exact h2.1
  · rw [if_neg hc, if_neg hc]; exact hs.1

theorem Twins.bufWriter (h : Twins R) : Twins (BufWriter.Alike (c := c) R) := by
  have room : ∀ (w : BufWriter c σ) (v : BufWriter c τ) (n : Nat), w.Alike R v →
      ((if n > bufCap - w.buf.length then w.flushBuf else (.ok (), w)).1 =
        (if n > bufCap - v.buf.length then v.flushBuf else (.ok (), v)).1 ∧
      (if n > bufCap - w.buf.length then w.flushBuf else (.ok (), w)).2.Alike R
        (if n > bufCap - v.buf.length then v.flushBuf else (.ok (), v)).2) := by
    intro w v n hs
    rw [← hs.2]
    by_cases hn : n > bufCap - w.buf.length
    · rw [if_pos hn, if_pos hn]; exact h.flushBuf hs
    · rw [if_neg hn, if_neg hn]; exact ⟨rfl, hs⟩
  have hw : ∀ (w : BufWriter c σ) (v : BufWriter c τ) buf, w.Alike R v →
      (w.writeImpl buf).1 = (v.writeImpl buf).1 ∧ (w.writeImpl buf).2.Alike R (v.writeImpl buf).2 := by
    intro w v buf hs
    have hroom := room w v buf.length hs
    have hb := hs.2
    unfold BufWriter.writeImpl
    by_cases hc : c.std = true
    · rw [if_pos hc, if_pos hc]
      by_cases hl : buf.length < bufCap - w.buf.length
      · rw [if_pos hl, if_pos (by rw [← hb]; exact hl)]
        exact ⟨rfl, hs.1, by dsimp only; rw [hb]⟩
      · have hl' : ¬ buf.length < bufCap - v.buf.length := by rw [← hb]; exact hl
        rw [if_neg hl, if_neg hl']
        rcases hf : (if buf.length > bufCap - w.buf.length then w.flushBuf else (.ok (), w)) with ⟨r, w'⟩
        rcases hf' : (if buf.length > bufCap - v.buf.length then v.flushBuf else (.ok (), v)) with ⟨r', v'⟩
        rw [hf, hf'] at hroom
        obtain ⟨h1, h2⟩ := hroom
        dsimp only at h1 h2
        subst h1
        cases r with
        | error e => exact ⟨rfl, h2⟩
        | ok _ =>
          dsimp only
          by_cases hbig : buf.length ≥ bufCap
          · rw [if_pos hbig, if_pos hbig]
            have := h.write _ _ buf h2.1
            exact ⟨this.1, this.2, h2.2⟩
          · rw [if_neg hbig, if_neg hbig]
            exact ⟨rfl, h2.1, by dsimp only; rw [h2.2]⟩
    · rw [if_neg hc, if_neg hc]
      have := h.write _ _ buf hs.1
      exact ⟨this.1, this.2, hs.2⟩
  refine ⟨hw, ?_, ?_⟩
  · intro w v hs
    show w.flushImpl.1 = v.flushImpl.1 ∧ w.flushImpl.2.Alike R v.flushImpl.2
    unfold BufWriter.flushImpl
    by_cases hc : c.std = true
    · rw [if_pos hc, if_pos hc]
      have := h.flushBuf hs
      rcases hf : w.flushBuf with ⟨r, w'⟩
      rcases hf' : v.flushBuf with ⟨r', v'⟩
      rw [hf, hf'] at this
      obtain ⟨h1, h2⟩ := this
      dsimp only at h1 h2
      subst h1
      cases r with
      | error e => exact ⟨rfl, h2⟩
      | ok _ =>
        have := h.flush _ _ h2.1
        exact ⟨this.1, this.2, h2.2⟩
    · rw [if_neg hc, if_neg hc]
      have := h.flush _ _ hs.1
      exact ⟨this.1, this.2, hs.2⟩
  · intro c' w v buf hs
    show (w.writeAllImpl buf).1 = (v.writeAllImpl buf).1 ∧ (w.writeAllImpl buf).2.Alike R (v.writeAllImpl buf).2
    have hroom := room w v buf.length hs
    have hb := hs.2
    unfold BufWriter.writeAllImpl
    by_cases hc : c.std = true
    · rw [if_pos hc, if_pos hc]
      by_cases hl : buf.length < bufCap - w.buf.length
      · rw [if_pos hl, if_pos (by rw [← hb]; exact hl)]
        exact ⟨rfl, hs.1, by dsimp only; rw [hb]⟩
      · have hl' : ¬ buf.length < bufCap - v.buf.length := by rw [← hb]; exact hl
        rw [if_neg hl, if_neg hl']
        rcases hf : (if buf.length > bufCap - w.buf.length then w.flushBuf else (.ok (), w)) with ⟨r, w'⟩
        rcases hf' : (if buf.length > bufCap - v.buf.length then v.flushBuf else (.ok (), v)) with ⟨r', v'⟩
        rw [hf, hf'] at hroom
        obtain ⟨h1, h2⟩ := hroom
        dsimp only at h1 h2
        subst h1
        cases r with
        | error e => exact ⟨rfl, h2⟩
        | ok _ =>
          dsimp only
          by_cases hbig : buf.length ≥ bufCap
          · rw [if_pos hbig, if_pos hbig]
            have := h.writeAll c _ _ buf h2.1
            exact ⟨this.1, this.2, h2.2⟩
          · rw [if_neg hbig, if_neg hbig]
            exact ⟨rfl, h2.1, by dsimp only; rw [h2.2]⟩
    · rw [if_neg hc, if_neg hc]
      exact defaultWriteAll_twins hw hs

theorem Twins.writePieces (h : Twins R) {s : σ} {t : τ} {ps : List Bytes} (hs : R s t) :
    (writePieces c s ps).1 = (writePieces c t ps).1 ∧ R (writePieces c s ps).2 (writePieces c t ps).2 := by
  induction ps generalizing s t with
  | nil => exact ⟨rfl, hs⟩
  | cons p ps ih =>
    unfold HttpIo.writePieces
    have := h.writeAll c s t p hs
    rcases hw : HttpIo.writeAll c s p with ⟨r, s'⟩
    rcases hw' : HttpIo.writeAll c t p with ⟨r', t'⟩
    rw [hw, hw'] at this
    obtain ⟨h1, h2⟩ := this
    dsimp only at h1 h2
    subst h1
    cases r with
    | error e => exact ⟨rfl, h2⟩
    | ok _ => exact ih h2

/-- Outgoing requests of the same kind on top of related transports. -/
def OutgoingRequest.Alike (R : σ → τ → Prop) : OutgoingRequest c σ → OutgoingRequest c τ → Prop
  | .NoBody s, .NoBody t => R s t
  | .WithBody b, .WithBody d => b.socket.Alike R d.socket
  | _, _ => False

theorem Twins.outgoingBody (h : Twins R) {b : OutgoingBody c σ} {d : OutgoingBody c τ} {buf : Bytes}
    (hb : b.socket.Alike R d.socket) : (b.writeImpl buf).1 = (d.writeImpl buf).1 ∧
      (b.writeImpl buf).2.socket.Alike R (d.writeImpl buf).2.socket := by
  have hk := h.bufWriter (c := c)
  unfold OutgoingBody.writeImpl
  by_cases h0 : buf.length = 0
  · rw [if_pos h0, if_pos h0]; exact ⟨rfl, hb⟩
  · rw [if_neg h0, if_neg h0]
    have g1 := hk.writePieces (c := c) (ps := [showHex buf.length, b!"\r\n"]) hb
    rcases e1 : HttpIo.writePieces c b.socket [showHex buf.length, b!"\r\n"] with ⟨r1, w1⟩
    rcases e1' : HttpIo.writePieces c d.socket [showHex buf.length, b!"\r\n"] with ⟨r1', v1⟩
    rw [e1, e1'] at g1
    obtain ⟨h1, g1⟩ := g1
    dsimp only at h1 g1
    subst h1
    cases r1 with
    | error e => exact ⟨rfl, g1⟩
    | ok _ =>
      dsimp only
      have g2 := hk.writeAll c w1 v1 buf g1
      rcases e2 : HttpIo.writeAll c w1 buf with ⟨r2, w2⟩
      rcases e2' : HttpIo.writeAll c v1 buf with ⟨r2', v2⟩
      rw [e2, e2'] at g2
      obtain ⟨h2, g2⟩ := g2
      dsimp only at h2 g2
      subst h2
      cases r2 with
      | error e => exact ⟨rfl, g2⟩
      | ok _ =>
        dsimp only
        have g3 := hk.writePieces (c := c) (ps := [b!"\r\n"]) g2
        rcases e3 : HttpIo.writePieces c w2 [b!"\r\n"] with ⟨r3, w3⟩
        rcases e3' : HttpIo.writePieces c v2 [b!"\r\n"] with ⟨r3', v3⟩
        rw [e3, e3'] at g3
        obtain ⟨h3, g3⟩ := g3
        dsimp only at h3 g3
        subst h3
        cases r3 with
        | error e => exact ⟨rfl, g3⟩
        | ok _ => exact ⟨rfl, g3⟩

theorem Twins.outgoing (h : Twins R) : Twins (OutgoingRequest.Alike (c := c) R) := by
  have hw : ∀ (o : OutgoingRequest c σ) (p : OutgoingRequest c τ) buf, o.Alike R p →
      (o.writeImpl buf).1 = (p.writeImpl buf).1 ∧ (o.writeImpl buf).2.Alike R (p.writeImpl buf).2 := by
    intro o p buf ho
    cases o with
    | NoBody s =>
      cases p with
      | NoBody t => exact ⟨rfl, ho⟩
      | WithBody d => exact ho.elim
    | WithBody b =>
      cases p with
      | NoBody t => exact ho.elim
      | WithBody d => exact h.outgoingBody (b := b) (d := d) ho
  refine ⟨hw, ?_, ?_⟩
  · intro o p ho
    cases o with
    | NoBody s =>
      cases p with
      | NoBody t => exact ⟨rfl, ho⟩
      | WithBody d => exact ho.elim
    | WithBody b =>
      cases p with
      | NoBody t => exact ho.elim
      | WithBody d => exact (h.bufWriter (c := c)).flush b.socket d.socket ho
  · intro c' o p buf ho
    exact defaultWriteAll_twins hw ho

theorem Twins.serialize (h : Twins R) {ρ : Type} {r : HttpRequest c ρ} {s : σ} {t : τ} (hs : R s t) :
    TwinResult (OutgoingRequest.Alike (c := c) R) R (r.serialize (BufWriter.new c s)) (r.serialize (BufWriter.new c t)) := by
  have g1 := (h.bufWriter (c := c)).writePieces (c := c) (s := BufWriter.new c s) (t := BufWriter.new c t) (ps := r.headPieces) ⟨hs, rfl⟩
  unfold HttpRequest.serialize
  rcases e1 : HttpIo.writePieces c (BufWriter.new c s) r.headPieces with ⟨r1, w⟩
  rcases e1' : HttpIo.writePieces c (BufWriter.new c t) r.headPieces with ⟨r1', v⟩
  rw [e1, e1'] at g1
  obtain ⟨h1, g1⟩ := g1
  dsimp only at h1 g1
  subst h1
  cases r1 with
  | error e => exact ⟨rfl, h.dropped g1⟩
  | ok _ =>
    dsimp only
    by_cases hb : r.method.hasBody = true
    · rw [if_pos hb, if_pos hb]; exact g1
    · rw [if_neg hb, if_neg hb]
      have g2 := h.intoInner g1
      cases hi : w.intoInner with
      | ok x =>
        cases hi' : v.intoInner with
        | ok y => rw [hi, hi'] at g2; exact g2
        | error y => rw [hi, hi'] at g2; exact g2.elim
      | error x =>
        cases hi' : v.intoInner with
        | ok y => rw [hi, hi'] at g2; exact g2.elim
        | error y => rw [hi, hi'] at g2; exact ⟨rfl, h.dropped g2.2⟩

theorem Twins.complete (h : Twins R) {o : OutgoingRequest c σ} {p : OutgoingRequest c τ} (ho : o.Alike R p) :
    TwinResult R R o.complete p.complete := by
  unfold OutgoingRequest.complete
  cases o with
  | NoBody s =>
    cases p with
    | WithBody d => exact ho.elim
    | NoBody t =>
      have := h.flush s t ho
      dsimp only
      rcases hf : HttpIo.flush s with ⟨r, s'⟩
      rcases hf' : HttpIo.flush t with ⟨r', t'⟩
      rw [hf, hf'] at this
      obtain ⟨h1, h2⟩ := this
      dsimp only at h1 h2
      subst h1
      cases r with
      | error e => exact ⟨rfl, h2⟩
      | ok _ => exact h2
  | WithBody b =>
    cases p with
    | NoBody t => exact ho.elim
    | WithBody d =>
      have g1 := (h.bufWriter (c := c)).writePieces (c := c) (s := b.socket) (t := d.socket) (ps := [b!"0\r\n\r\n"]) ho
      dsimp only
      rcases e1 : HttpIo.writePieces c b.socket [b!"0\r\n\r\n"] with ⟨r1, w⟩
      rcases e1' : HttpIo.writePieces c d.socket [b!"0\r\n\r\n"] with ⟨r1', v⟩
      rw [e1, e1'] at g1
      obtain ⟨h1, g1⟩ := g1
      dsimp only at h1 g1
      subst h1
      cases r1 with
      | error e => exact ⟨rfl, h.dropped g1⟩
      | ok _ =>
        dsimp only
        have g2 := (h.bufWriter (c := c)).flush w v g1
        rcases e2 : HttpIo.flush w with ⟨r2, w'⟩
        rcases e2' : HttpIo.flush v with ⟨r2', v'⟩
        rw [e2, e2'] at g2
        obtain ⟨h2, g2⟩ := g2
        dsimp only at h2 g2
        subst h2
        cases r2 with
        | error e => exact ⟨rfl, h.dropped g2⟩
        | ok _ =>
          dsimp only
          have g3 := h.intoInner g2
          cases hi : w'.intoInner with
          | ok x =>
            cases hi' : v'.intoInner with
            | ok y => rw [hi, hi'] at g3; exact g3
            | error y => rw [hi, hi'] at g3; exact g3.elim
          | error x =>
            cases hi' : v'.intoInner with
            | ok y => rw [hi, hi'] at g3; exact g3.elim
            | error y => rw [hi, hi'] at g3; exact ⟨rfl, h.dropped g3.2⟩

theorem Twins.droppedRequest (h : Twins R) {o : OutgoingRequest c σ} {p : OutgoingRequest c τ} (ho : o.Alike R p) :
    R o.dropped p.dropped := by
  unfold OutgoingRequest.dropped
  cases o with
  | NoBody s =>
    cases p with
    | NoBody t => exact ho
    | WithBody d => exact ho.elim
  | WithBody b =>
    cases p with
    | NoBody t => exact ho.elim
    | WithBody d => exact h.dropped ho

theorem Twins.perform (h : Twins R) {s : σ} {t : τ} {cs : List WCall} (hs : R s t) :
    (perform s cs).1 = (perform t cs).1 ∧ R (perform s cs).2 (perform t cs).2 := by
  induction cs generalizing s t with
  | nil => exact ⟨rfl, hs⟩
  | cons cl cs ih =>
    cases cl with
    | write buf =>
      rw [Spec.perform, Spec.perform]
      have := h.write s t buf hs
      rcases hw : HttpIo.write s buf with ⟨r, s'⟩
      rcases hw' : HttpIo.write t buf with ⟨r', t'⟩
      rw [hw, hw'] at this
      obtain ⟨h1, h2⟩ := this
      dsimp only at h1 h2
      subst h1
      cases r with
      | error e => exact ⟨rfl, h2⟩
      | ok k =>
        dsimp only
        by_cases hk : k = buf.length
        · rw [if_pos hk, if_pos hk]; exact ih h2
        · rw [if_neg hk, if_neg hk]; exact ⟨rfl, h2⟩
    | flush =>
      rw [Spec.perform, Spec.perform]
      have := h.flush s t hs
      rcases hw : HttpIo.flush s with ⟨r, s'⟩
      rcases hw' : HttpIo.flush t with ⟨r', t'⟩
      rw [hw, hw'] at this
      obtain ⟨h1, h2⟩ := this
      dsimp only at h1 h2
      subst h1
      cases r with
      | error e => exact ⟨rfl, h2⟩
      | ok _ => exact ih h2

theorem Twins.copy (h : Twins R) {ρ : Type} [LawfulReader ρ] {r : ρ} {s : σ} {t : τ} {n : Nat} (hs : R s t) :
    (copy c r s n).1 = (copy c r t n).1 ∧ R (copy c r s n).2.2 (copy c r t n).2.2 := by
  fun_induction HttpIo.copy c r s n generalizing t with
  | case1 r w n r1 hr =>
    rw [HttpIo.copy.eq_def c r t]; rw [hr]; exact ⟨rfl, hs⟩
  | case2 r w n b bs r1 hr w1 hw ih =>
    have := h.writeAll c w t (b :: bs) hs
    rw [hw] at this
    rcases hw' : HttpIo.writeAll c t (b :: bs) with ⟨r', t'⟩
    rw [hw'] at this
    obtain ⟨h1, h2⟩ := this
    dsimp only at h1 h2
    subst h1
    rw [HttpIo.copy.eq_def c r t, hr]
    dsimp only
    rw [hw']
    exact ih h2
  | case3 r w n b bs r1 hr e1 w1 hw =>
    have := h.writeAll c w t (b :: bs) hs
    rw [hw] at this
    rcases hw' : HttpIo.writeAll c t (b :: bs) with ⟨r', t'⟩
    rw [hw'] at this
    obtain ⟨h1, h2⟩ := this
    dsimp only at h1 h2
    subst h1
    rw [HttpIo.copy.eq_def c r t, hr]
    dsimp only
    rw [hw']
    exact ⟨rfl, h2⟩
  | case4 r w n e r1 hr hret ih =>
    rw [HttpIo.copy.eq_def c r t, hr]
    dsimp only
    rw [if_pos hret]
    exact ih hs
  | case5 r w n e r1 hr hret =>
    rw [HttpIo.copy.eq_def c r t, hr]
    dsimp only
    rw [if_neg hret]
    exact ⟨rfl, hs⟩

end

end HttpIo
