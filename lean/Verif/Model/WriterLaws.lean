import Verif.Model.Writer

/-!
The contract of `Write`, with ghosts for what was accepted and what reached the transport, and its instances.
-/

namespace HttpIo

/-- A writer that keeps the contract of `Write`. Ghosts: `sent` is everything accepted so far, in order; `wire`
is the part that is on the transport (the rest sits in some buffer of the writer). Any number of bytes may be
accepted by a call, and any call may fail. -/
class LawfulWriter (σ : Type) extends Writer σ where
  sent : σ → Bytes
  wire : σ → Bytes
  wire_sent : ∀ s, wire s <+: sent s
  write_wire : ∀ s buf, wire s <+: wire (write s buf).2
  write_ok_sent : ∀ {s s' : σ} {buf : Bytes} {k : Nat}, write s buf = (.ok k, s') → sent s' = sent s ++ buf.take k
  write_err_sent : ∀ {s s' : σ} {buf : Bytes} {e : Err}, write s buf = (.error e, s') → sent s' = sent s
  writeAll_wire : ∀ c s buf, wire s <+: wire (writeAll c s buf).2
  writeAll_ok_sent : ∀ {c : Cfg} {s s' : σ} {buf : Bytes}, writeAll c s buf = (.ok (), s') → sent s' = sent s ++ buf
  writeAll_err_sent : ∀ {c : Cfg} {s s' : σ} {buf : Bytes} {e : Err}, writeAll c s buf = (.error e, s') →
    ∃ p, p <+: buf ∧ sent s' = sent s ++ p
  flush_sent : ∀ s, sent (flush s).2 = sent s
  flush_wire : ∀ s, wire s <+: wire (flush s).2
  flush_ok_wire : ∀ {s s' : σ}, flush s = (.ok (), s') → wire s' = sent s'

export LawfulWriter (sent wire)

/-- The `write`-level contract alone, enough for the default `write_all`. -/
structure WriteContract (σ : Type) [FiniteWriter σ] (sent wire : σ → Bytes) : Prop where
  write_wire : ∀ s buf, wire s <+: wire (write s buf).2
  write_ok_sent : ∀ {s s' : σ} {buf : Bytes} {k : Nat}, write s buf = (.ok k, s') → sent s' = sent s ++ buf.take k
  write_err_sent : ∀ {s s' : σ} {buf : Bytes} {e : Err}, write s buf = (.error e, s') → sent s' = sent s

theorem writeLoop_sent {σ : Type} [FiniteWriter σ] {sent wire : σ → Bytes} (hc : WriteContract σ sent wire)
    {c : Cfg} {s s' : σ} {buf rest : Bytes} {r : Except Err Unit} (h : writeLoop c s buf = (r, rest, s')) :
    (∃ p, p ++ rest = buf ∧ sent s' = sent s ++ p) ∧ wire s <+: wire s' ∧ (r = .ok () → rest = []) := by
  fun_induction writeLoop c s buf with
  | case1 s =>
    simp only [Prod.mk.injEq] at h; obtain ⟨h1, h2, h3⟩ := h
    subst h3; subst h2
    exact ⟨⟨[], rfl, by simp⟩, List.prefix_refl _, fun _ => rfl⟩
  | case2 s buf hb s1 hw =>
    simp only [Prod.mk.injEq] at h; obtain ⟨h1, h2, h3⟩ := h
    subst h3; subst h2; subst h1
    refine ⟨⟨[], rfl, ?_⟩, ?_, by simp⟩
    · have := hc.write_ok_sent hw; simpa using this
    · have := hc.write_wire s buf; rwa [hw] at this
  | case3 s buf hb k s1 hw ih =>
    obtain ⟨⟨p, hp, hs⟩, hwi, hr⟩ := ih h
    refine ⟨⟨buf.take (k + 1) ++ p, ?_, ?_⟩, ?_, hr⟩
    · rw [List.append_assoc, hp, List.take_append_drop]
    · rw [hs, hc.write_ok_sent hw, List.append_assoc]
    · have := hc.write_wire s buf; rw [hw] at this; exact List.IsPrefix.trans this hwi
  | case4 s buf hb e s1 hw hr ih =>
    obtain ⟨⟨p, hp, hs⟩, hwi, hr⟩ := ih h
    refine ⟨⟨p, hp, ?_⟩, ?_, hr⟩
    · rw [hs, hc.write_err_sent hw]
    · have := hc.write_wire s buf; rw [hw] at this; exact List.IsPrefix.trans this hwi
  | case5 s buf hb e s1 hw hr =>
    simp only [Prod.mk.injEq] at h; obtain ⟨h1, h2, h3⟩ := h
    subst h3; subst h2; subst h1
    refine ⟨⟨[], rfl, ?_⟩, ?_, by simp⟩
    · have := hc.write_err_sent hw; simpa using this
    · have := hc.write_wire s buf; rwa [hw] at this

theorem defaultWriteAll_sent {σ : Type} [FiniteWriter σ] {sent wire : σ → Bytes} (hc : WriteContract σ sent wire)
    {c : Cfg} {s s' : σ} {buf : Bytes} {r : Except Err Unit} (h : defaultWriteAll c s buf = (r, s')) :
    (∃ p, p <+: buf ∧ sent s' = sent s ++ p ∧ (r = .ok () → p = buf)) ∧ wire s <+: wire s' := by
  unfold defaultWriteAll at h
  rcases hw : writeLoop c s buf with ⟨r', rest, s1⟩
  rw [hw] at h
  simp only [Prod.mk.injEq] at h
  obtain ⟨rfl, rfl⟩ := h
  obtain ⟨⟨p, hp, hs⟩, hwi, hr⟩ := writeLoop_sent hc hw
  exact ⟨⟨p, ⟨rest, hp⟩, hs, fun hok => by rw [hr hok] at hp; simpa using hp⟩, hwi⟩

theorem LawfulWriter.contract {σ : Type} [LawfulWriter σ] : WriteContract σ (sent (σ := σ)) wire :=
  ⟨LawfulWriter.write_wire, LawfulWriter.write_ok_sent, LawfulWriter.write_err_sent⟩

/-- A write-level lawful writer with the default `write_all` is lawful. -/
@[reducible] def LawfulWriter.ofContract (σ : Type) [FiniteWriter σ] (sent wire : σ → Bytes)
    (wire_sent : ∀ s, wire s <+: sent s) (hc : WriteContract σ sent wire)
    (flush_sent : ∀ s : σ, sent (flush s).2 = sent s) (flush_wire : ∀ s : σ, wire s <+: wire (flush s).2)
    (flush_ok_wire : ∀ {s s' : σ}, flush s = (.ok (), s') → wire s' = sent s') : LawfulWriter σ where
  writeAll := defaultWriteAll
  writeAll_le := defaultWriteAll_le
  sent := sent
  wire := wire
  wire_sent := wire_sent
  write_wire := hc.write_wire
  write_ok_sent := hc.write_ok_sent
  write_err_sent := hc.write_err_sent
  writeAll_wire c s buf := (defaultWriteAll_sent hc (r := (defaultWriteAll c s buf).1) rfl).2
  writeAll_ok_sent h := by
    obtain ⟨⟨p, _, h1, h2⟩, _⟩ := defaultWriteAll_sent hc h
    rw [h1, h2 rfl]
  writeAll_err_sent h := by
    obtain ⟨⟨p, hp, h1, _⟩, _⟩ := defaultWriteAll_sent hc h
    exact ⟨p, hp, h1⟩
  flush_sent := flush_sent
  flush_wire := flush_wire
  flush_ok_wire := flush_ok_wire

/-! ### BufWriter -/

section
variable {c : Cfg} {σ : Type} [LawfulWriter σ]

theorem BufWriter.write_def (w : BufWriter c σ) (buf : Bytes) : write w buf = BufWriter.writeImpl w buf := rfl
theorem BufWriter.flush_def (w : BufWriter c σ) : flush w = BufWriter.flushImpl w := rfl
theorem BufWriter.writeAll_def (c' : Cfg) (w : BufWriter c σ) (buf : Bytes) :
    writeAll c' w buf = BufWriter.writeAllImpl w buf := rfl

/-- What a buffered writer has accepted. -/
def BufWriter.sentImpl (w : BufWriter c σ) : Bytes := if c.std then sent w.inner ++ w.buf else sent w.inner

theorem BufWriter.flushBuf_sent {w w' : BufWriter c σ} {r : Except Err Unit} (h : w.flushBuf = (r, w')) :
    sent w'.inner ++ w'.buf = sent w.inner ++ w.buf ∧ wire w.inner <+: wire w'.inner ∧ (r = .ok () → w'.buf = []) := by
  unfold BufWriter.flushBuf at h
  rcases hw : writeLoop c w.inner w.buf with ⟨r', rest, s1⟩
  rw [hw] at h
  simp only [Prod.mk.injEq] at h
  obtain ⟨rfl, rfl⟩ := h
  obtain ⟨⟨p, hp, hs⟩, hwi, hr⟩ := writeLoop_sent LawfulWriter.contract hw
  dsimp only
  refine ⟨?_, hwi, hr⟩
  rw [hs, List.append_assoc, hp]

/-- The step common to `write` and `write_all`: make room. -/
theorem BufWriter.room_sent {w w' : BufWriter c σ} {r : Except Err Unit} {p : Prop} [Decidable p]
    (h : (if p then w.flushBuf else (.ok (), w)) = (r, w')) :
    sent w'.inner ++ w'.buf = sent w.inner ++ w.buf ∧ wire w.inner <+: wire w'.inner ∧
      (r = .ok () → p → w'.buf = []) := by
  split at h
  · have := BufWriter.flushBuf_sent h
    exact ⟨this.1, this.2.1, fun hr _ => this.2.2 hr⟩
  · simp only [Prod.mk.injEq] at h; rw [← h.2]
    exact ⟨rfl, List.prefix_refl _, fun _ hp => absurd hp (by assumption)⟩

theorem BufWriter.room_empty {w w' : BufWriter c σ} {r : Except Err Unit} {n : Nat} (hn : n ≥ bufCap)
    (h : (if n > bufCap - w.buf.length then w.flushBuf else (.ok (), w)) = (r, w')) (hr : r = .ok ()) :
    w'.buf = [] := by
  have hpos : 0 < bufCap := by decide
  by_cases hp : n > bufCap - w.buf.length
  · exact (BufWriter.room_sent h).2.2 hr hp
  · rw [if_neg hp] at h
    simp only [Prod.mk.injEq] at h
    rw [← h.2]
    exact List.eq_nil_of_length_eq_zero (by omega)

theorem BufWriter.write_spec {w w' : BufWriter c σ} {buf : Bytes} {r : Except Err Nat}
    (h : BufWriter.writeImpl w buf = (r, w')) :
    wire w.inner <+: wire w'.inner ∧
    (∀ k, r = .ok k → w'.sentImpl = w.sentImpl ++ buf.take k) ∧ (∀ e, r = .error e → w'.sentImpl = w.sentImpl) := by
  unfold BufWriter.writeImpl at h
  unfold BufWriter.sentImpl
  split at h
  · rename_i hstd
    simp only [hstd, if_true]
    split at h
    · simp only [Prod.mk.injEq] at h; rw [← h.1, ← h.2]
      exact ⟨List.prefix_refl _, by simp, by simp⟩
    · split at h
      · rename_i e w1 heq
        simp only [Prod.mk.injEq] at h; rw [← h.1, ← h.2]
        have := BufWriter.room_sent heq
        exact ⟨this.2.1, by simp, fun _ _ => this.1⟩
      · rename_i w1 heq
        have hroom := BufWriter.room_sent heq
        split at h
        · rename_i hbig
          have hempty := BufWriter.room_empty hbig heq rfl
          rcases hw : write w1.inner buf with ⟨r', i⟩
          rw [hw] at h
          simp only [Prod.mk.injEq] at h; rw [← h.1, ← h.2]
          have h1 := LawfulWriter.write_wire w1.inner buf
          rw [hw] at h1
          dsimp only at h1 ⊢
          refine ⟨List.IsPrefix.trans hroom.2.1 h1, fun k hk => ?_, fun e he => ?_⟩
          · rw [hk] at hw
            rw [← hroom.1, LawfulWriter.write_ok_sent hw, hempty]; simp
          · rw [he] at hw
            rw [← hroom.1, LawfulWriter.write_err_sent hw]
        · simp only [Prod.mk.injEq] at h; rw [← h.1, ← h.2]
          refine ⟨hroom.2.1, fun k hk => ?_, by simp⟩
          simp only [Except.ok.injEq] at hk
          rw [← hk]
          simp [← List.append_assoc, hroom.1]
  · rename_i hstd
    rw [if_neg hstd, if_neg hstd]
    rcases hw : write w.inner buf with ⟨r', i⟩
    rw [hw] at h
    simp only [Prod.mk.injEq] at h; rw [← h.1, ← h.2]
    have h1 := LawfulWriter.write_wire w.inner buf
    rw [hw] at h1
    refine ⟨h1, fun k hk => ?_, fun e he => ?_⟩
    · rw [hk] at hw; exact LawfulWriter.write_ok_sent hw
    · rw [he] at hw; exact LawfulWriter.write_err_sent hw

theorem BufWriter.contract : WriteContract (BufWriter c σ) BufWriter.sentImpl (fun w => wire w.inner) where
  write_wire w buf := (BufWriter.write_spec (r := (BufWriter.writeImpl w buf).1) rfl).1
  write_ok_sent h := (BufWriter.write_spec h).2.1 _ rfl
  write_err_sent h := (BufWriter.write_spec h).2.2 _ rfl

theorem BufWriter.writeAll_spec {w w' : BufWriter c σ} {buf : Bytes} {r : Except Err Unit}
    (h : BufWriter.writeAllImpl w buf = (r, w')) :
    wire w.inner <+: wire w'.inner ∧
    ∃ p, p <+: buf ∧ w'.sentImpl = w.sentImpl ++ p ∧ (r = .ok () → p = buf) := by
  unfold BufWriter.writeAllImpl at h
  split at h
  · rename_i hstd
    unfold BufWriter.sentImpl
    simp only [hstd, if_true]
    split at h
    · simp only [Prod.mk.injEq] at h; rw [← h.1, ← h.2]
      exact ⟨List.prefix_refl _, buf, List.prefix_refl _, by simp, by simp⟩
    · split at h
      · rename_i e w1 heq
        simp only [Prod.mk.injEq] at h; rw [← h.1, ← h.2]
        have := BufWriter.room_sent heq
        exact ⟨this.2.1, [], List.nil_prefix, by simpa using this.1, by simp⟩
      · rename_i w1 heq
        have hroom := BufWriter.room_sent heq
        split at h
        · rename_i hbig
          have hempty := BufWriter.room_empty hbig heq rfl
          rcases hw : writeAll c w1.inner buf with ⟨r', i⟩
          rw [hw] at h
          simp only [Prod.mk.injEq] at h; rw [← h.1, ← h.2]
          have h1 := LawfulWriter.writeAll_wire c w1.inner buf
          rw [hw] at h1
          dsimp only at h1 ⊢
          refine ⟨List.IsPrefix.trans hroom.2.1 h1, ?_⟩
          cases r' with
          | ok u =>
            refine ⟨buf, List.prefix_refl _, ?_, fun _ => rfl⟩
            rw [← hroom.1, LawfulWriter.writeAll_ok_sent hw, hempty]; simp
          | error e =>
            obtain ⟨p, hp, hs⟩ := LawfulWriter.writeAll_err_sent hw
            refine ⟨p, hp, ?_, by simp⟩
            rw [← hroom.1, hs, hempty]; simp
        · simp only [Prod.mk.injEq] at h; rw [← h.1, ← h.2]
          exact ⟨hroom.2.1, buf, List.prefix_refl _, by simp [← List.append_assoc, hroom.1], fun _ => rfl⟩
  · obtain ⟨h1, h2⟩ := defaultWriteAll_sent BufWriter.contract h
    exact ⟨h2, h1⟩

theorem BufWriter.flush_spec {w w' : BufWriter c σ} {r : Except Err Unit} (h : BufWriter.flushImpl w = (r, w')) :
    w'.sentImpl = w.sentImpl ∧ wire w.inner <+: wire w'.inner ∧
      (r = .ok () → wire w'.inner = w'.sentImpl ∧ (c.std = true → w'.buf = [])) := by
  unfold BufWriter.flushImpl at h
  unfold BufWriter.sentImpl
  split at h
  · rename_i hstd
    simp only [hstd, if_true]
    split at h
    · rename_i e w1 heq
      simp only [Prod.mk.injEq] at h; rw [← h.1, ← h.2]
      have := BufWriter.flushBuf_sent heq
      exact ⟨this.1, this.2.1, by simp⟩
    · rename_i w1 heq
      have hfb := BufWriter.flushBuf_sent heq
      have hempty := hfb.2.2 rfl
      rcases hw : flush w1.inner with ⟨r', i⟩
      rw [hw] at h
      simp only [Prod.mk.injEq] at h; rw [← h.1, ← h.2]
      dsimp only
      have h1 := LawfulWriter.flush_sent w1.inner
      have h2 := LawfulWriter.flush_wire w1.inner
      rw [hw] at h1 h2
      dsimp only at h1 h2
      refine ⟨by rw [h1, hfb.1], List.IsPrefix.trans hfb.2.1 h2, fun hr => ?_⟩
      rw [hr] at hw
      rw [LawfulWriter.flush_ok_wire hw, hempty]; simp
  · rename_i hstd
    rw [if_neg hstd, if_neg hstd]
    rcases hw : flush w.inner with ⟨r', i⟩
    rw [hw] at h
    simp only [Prod.mk.injEq] at h; rw [← h.1, ← h.2]
    have h1 := LawfulWriter.flush_sent w.inner
    have h2 := LawfulWriter.flush_wire w.inner
    rw [hw] at h1 h2
    refine ⟨h1, h2, fun hr => ?_⟩
    rw [hr] at hw
    exact ⟨LawfulWriter.flush_ok_wire hw, fun hc => absurd hc hstd⟩

instance : LawfulWriter (BufWriter c σ) where
  sent := BufWriter.sentImpl
  wire w := wire w.inner
  wire_sent w := by
    unfold BufWriter.sentImpl
    split
    · exact List.IsPrefix.trans (LawfulWriter.wire_sent w.inner) (List.prefix_append _ _)
    · exact LawfulWriter.wire_sent w.inner
  write_wire := BufWriter.contract.write_wire
  write_ok_sent := BufWriter.contract.write_ok_sent
  write_err_sent := BufWriter.contract.write_err_sent
  writeAll_wire c' w buf := (BufWriter.writeAll_spec (r := (BufWriter.writeAllImpl w buf).1) rfl).1
  writeAll_ok_sent h := by
    obtain ⟨_, p, _, h1, h2⟩ := BufWriter.writeAll_spec h
    rw [h1, h2 rfl]
  writeAll_err_sent h := by
    obtain ⟨_, p, hp, h1, _⟩ := BufWriter.writeAll_spec h
    exact ⟨p, hp, h1⟩
  flush_sent w := (BufWriter.flush_spec (r := (BufWriter.flushImpl w).1) rfl).1
  flush_wire w := (BufWriter.flush_spec (r := (BufWriter.flushImpl w).1) rfl).2.1
  flush_ok_wire h := ((BufWriter.flush_spec h).2.2 rfl).1

theorem BufWriter.sent_eq (w : BufWriter c σ) :
    sent w = if c.std then sent w.inner ++ w.buf else sent w.inner := rfl
theorem BufWriter.wire_eq (w : BufWriter c σ) : wire w = wire w.inner := rfl

@[simp] theorem BufWriter.sent_new (s : σ) : sent (BufWriter.new c s) = sent s := by
  rw [BufWriter.sent_eq]; unfold BufWriter.new; simp

theorem BufWriter.intoInner_ok {w : BufWriter c σ} {s : σ} (h : w.intoInner = .ok s) :
    sent s = sent w ∧ wire w <+: wire s := by
  unfold BufWriter.intoInner at h
  rw [BufWriter.sent_eq, BufWriter.wire_eq]
  split at h
  · rename_i hstd
    split at h
    · simp at h
    · rename_i w1 heq
      simp only [Except.ok.injEq] at h
      have := BufWriter.flushBuf_sent heq
      rw [← h, if_pos hstd, ← this.1, this.2.2 rfl]
      exact ⟨by simp, this.2.1⟩
  · rename_i hstd
    simp only [Except.ok.injEq] at h
    rw [if_neg hstd, h]; exact ⟨rfl, List.prefix_refl _⟩

theorem BufWriter.intoInner_err {w w' : BufWriter c σ} {e : Err} (h : w.intoInner = .error (e, w')) :
    sent w' = sent w ∧ wire w <+: wire w' := by
  unfold BufWriter.intoInner at h
  rw [BufWriter.sent_eq, BufWriter.wire_eq, BufWriter.sent_eq, BufWriter.wire_eq]
  split at h
  · rename_i hstd
    split at h
    · rename_i e1 w1 heq
      simp only [Except.error.injEq, Prod.mk.injEq] at h
      have := BufWriter.flushBuf_sent heq
      rw [← h.2, if_pos hstd, if_pos hstd]
      exact ⟨this.1, this.2.1⟩
    · simp at h
  · simp at h

/-- Dropping never sends anything but (a prefix of) what is still buffered. -/
theorem BufWriter.dropped_sent (w : BufWriter c σ) :
    sent w.dropped <+: sent w ∧ sent w.inner <+: sent w.dropped ∧ wire w <+: wire w.dropped := by
  unfold BufWriter.dropped
  rw [BufWriter.sent_eq, BufWriter.wire_eq]
  split
  · rcases hf : w.flushBuf with ⟨r, w1⟩
    unfold BufWriter.flushBuf at hf
    rcases hw : writeLoop c w.inner w.buf with ⟨r', rest, s1⟩
    rw [hw] at hf
    simp only [Prod.mk.injEq] at hf
    obtain ⟨rfl, rfl⟩ := hf
    obtain ⟨⟨p, hp, hs⟩, hwi, hr⟩ := writeLoop_sent LawfulWriter.contract hw
    dsimp only
    refine ⟨?_, ?_, hwi⟩
    · rw [hs, ← hp, ← List.append_assoc]; exact List.prefix_append _ _
    · rw [hs]; exact List.prefix_append _ _
  · exact ⟨List.prefix_refl _, List.prefix_refl _, List.prefix_refl _⟩

end

theorem writePieces_sent {σ : Type} [LawfulWriter σ] {c : Cfg} {s s' : σ} {ps : List Bytes} {r : Except Err Unit}
    (h : writePieces c s ps = (r, s')) :
    wire s <+: wire s' ∧ ∃ p, p <+: ps.flatten ∧ sent s' = sent s ++ p ∧ (r = .ok () → p = ps.flatten) := by
  induction ps generalizing s with
  | nil =>
    simp only [writePieces, Prod.mk.injEq] at h
    rw [← h.2]; exact ⟨List.prefix_refl _, [], List.nil_prefix, by simp, by simp⟩
  | cons a ps ih =>
    unfold writePieces at h
    rcases hw : writeAll c s a with ⟨_ | _, s1⟩
    · rw [hw] at h
      simp only [Prod.mk.injEq] at h
      have h1 := LawfulWriter.writeAll_wire c s a
      rw [hw] at h1
      obtain ⟨p, hp, hs⟩ := LawfulWriter.writeAll_err_sent hw
      rw [← h.1, ← h.2]
      refine ⟨h1, p, ?_, hs, by simp⟩
      rw [List.flatten_cons]; exact List.IsPrefix.trans hp (List.prefix_append _ _)
    · rw [hw] at h
      have h1 := LawfulWriter.writeAll_wire c s a
      rw [hw] at h1
      obtain ⟨h2, p, hp, hs, hr⟩ := ih h
      refine ⟨List.IsPrefix.trans h1 h2, a ++ p, ?_, ?_, fun hok => by rw [hr hok, List.flatten_cons]⟩
      · rw [List.flatten_cons]; exact (List.prefix_append_right_inj a).2 hp
      · rw [hs, LawfulWriter.writeAll_ok_sent hw, List.append_assoc]

/-! ### A scripted transport -/

/-- One planned answer to a `write` call. -/
inductive WPlan where
  | accept (n : Nat)
  | fault (e : Err)
deriving DecidableEq, Repr

/-- A scripted sink: accepts up to the planned number of bytes, or fails, call by call; everything once the plan
is over. `flushed` counts how much of `got` has been flushed to the wire. Stand-in for the sending half of a
socket. -/
structure Sink where
  got : Bytes
  flushed : Nat
  plan : List WPlan
deriving DecidableEq, Repr

def Sink.writeImpl (s : Sink) (buf : Bytes) : Except Err Nat × Sink :=
  match s.plan with
  | [] => (.ok buf.length, { s with got := s.got ++ buf })
  | .accept n :: t => (.ok (min n buf.length), { s with got := s.got ++ buf.take n, plan := t })
  | .fault e :: t => (.error e, { s with plan := t })

def Sink.flushImpl (s : Sink) : Except Err Unit × Sink := (.ok (), { s with flushed := s.got.length })

instance : FiniteWriter Sink where
  write := Sink.writeImpl
  flush := Sink.flushImpl
  patience s := s.plan.length
  write_ok {s s'} buf k h := by
    unfold Sink.writeImpl at h
    split at h
    · simp only [Prod.mk.injEq, Except.ok.injEq] at h; rw [← h.1, ← h.2]; simp
    · rename_i n t hp
      simp only [Prod.mk.injEq, Except.ok.injEq] at h; rw [← h.1, ← h.2, hp]; simp; omega
    · simp at h
  write_err {s s'} buf e h := by
    unfold Sink.writeImpl at h
    split at h
    · simp at h
    · simp at h
    · rename_i e' t hp
      simp only [Prod.mk.injEq] at h; rw [← h.2, hp]; simp
  flush_le s := Nat.le_refl _

instance : LawfulWriter Sink :=
  LawfulWriter.ofContract Sink Sink.got (fun s => s.got.take s.flushed) (fun _ => List.take_prefix _ _)
    { write_wire := fun s buf => by
        show _ <+: List.take (Sink.writeImpl s buf).2.flushed (Sink.writeImpl s buf).2.got
        unfold Sink.writeImpl
        split <;> simp only [List.prefix_refl]
        · rw [List.take_append]; exact List.prefix_append _ _
        · rw [List.take_append]; exact List.prefix_append _ _
      write_ok_sent := fun {s s' buf k} h => by
        replace h : Sink.writeImpl s buf = (.ok k, s') := h
        unfold Sink.writeImpl at h
        split at h
        · simp only [Prod.mk.injEq, Except.ok.injEq] at h; rw [← h.1, ← h.2]; simp
        · simp only [Prod.mk.injEq, Except.ok.injEq] at h; rw [← h.1, ← h.2]
          dsimp only
          congr 1
          rw [List.take_eq_take_iff]; omega
        · simp at h
      write_err_sent := fun {s s' buf e} h => by
        replace h : Sink.writeImpl s buf = (.error e, s') := h
        unfold Sink.writeImpl at h
        split at h
        · simp at h
        · simp at h
        · simp only [Prod.mk.injEq] at h; rw [← h.2] }
    (fun _ => rfl)
    (fun s => by
      show _ <+: List.take (Sink.flushImpl s).2.flushed (Sink.flushImpl s).2.got
      unfold Sink.flushImpl
      simp [List.take_prefix])
    (fun {s s'} h => by
      replace h : Sink.flushImpl s = (.ok (), s') := h
      unfold Sink.flushImpl at h
      simp only [Prod.mk.injEq, true_and] at h
      rw [← h]; simp)

end HttpIo
