import Verif.Spec.Handed
import Verif.Props.SendFails
import Verif.Lemmas.Leftover
import Verif.Lemmas.Server

/-! With which calls a message is handed to the transport. -/

namespace HttpIo
open Spec

/-! ### The recorder -/

instance : FiniteWriter Recorder where
  write s buf := (.ok buf.length, ⟨s.log ++ [.write buf]⟩)
  flush s := (.ok (), ⟨s.log ++ [.flush]⟩)
  patience _ := 0
  write_ok {s s'} buf k h := by
    simp only [Prod.mk.injEq, Except.ok.injEq] at h; rw [← h.1]; exact ⟨Nat.le_refl _, Nat.le_refl _⟩
  write_err {s s'} buf e h := by simp at h
  flush_le s := Nat.le_refl _

theorem written_append (a b : List WCall) : written (a ++ b) = written a ++ written b := by
  induction a with
  | nil => rfl
  | cons x a ih => cases x <;> simp [written, ih]

instance : LawfulWriter Recorder :=
  LawfulWriter.ofContract Recorder (fun s => (written s.log).flatten) (fun s => (written s.log).flatten)
    (fun _ => List.prefix_refl _)
    { write_wire := fun s buf => by
        show _ <+: (written (s.log ++ [.write buf])).flatten
        rw [written_append]; simp
      write_ok_sent := fun {s s' buf k} h => by
        replace h : (Except.ok buf.length, (⟨s.log ++ [.write buf]⟩ : Recorder)) = (.ok k, s') := h
        simp only [Prod.mk.injEq, Except.ok.injEq] at h
        rw [← h.1, ← h.2]
        dsimp only
        rw [written_append]; simp [written]
      write_err_sent := fun {s s' buf e} h => by
        replace h : ((Except.ok buf.length : Except Err Nat), (⟨s.log ++ [.write buf]⟩ : Recorder)) = (.error e, s') := h
        simp at h }
    (fun s => by
      show (written (s.log ++ [.flush])).flatten = _
      rw [written_append]; simp [written])
    (fun s => by
      show _ <+: (written (s.log ++ [.flush])).flatten
      rw [written_append]; simp [written])
    (fun {s s'} h => rfl)

theorem Recorder.plain : PlainWriteAll Recorder := fun _ _ _ => rfl

/-! ### Calls -/

section
variable {c : Cfg} {σ : Type}

theorem perform_append [FiniteWriter σ] {s s' : σ} {a b : List WCall} (h : perform s (a ++ b) = (true, s')) :
    ∃ s1, perform s a = (true, s1) ∧ perform s1 b = (true, s') := by
  induction a generalizing s with
  | nil => exact ⟨s, rfl, h⟩
  | cons x a ih =>
    cases x with
    | write buf =>
      rw [List.cons_append, perform] at h
      rw [perform]
      rcases hw : FiniteWriter.write s buf with ⟨e | k, s1⟩
      · rw [hw] at h; simp at h
      · rw [hw] at h
        dsimp only at h ⊢
        by_cases hk : k = buf.length
        · rw [if_pos hk] at h ⊢; exact ih h
        · rw [if_neg hk] at h; simp at h
    | flush =>
      rw [List.cons_append, perform] at h
      rw [perform]
      rcases hw : FiniteWriter.flush s with ⟨e | _, s1⟩
      · rw [hw] at h; simp at h
      · rw [hw] at h; exact ih h

theorem perform_write [FiniteWriter σ] {s s' : σ} {buf : Bytes} {cs : List WCall} (h : perform s (.write buf :: cs) = (true, s')) :
    ∃ s1, write s buf = (.ok buf.length, s1) ∧ perform s1 cs = (true, s') := by
  rw [perform] at h
  rcases hw : FiniteWriter.write s buf with ⟨e | k, s1⟩
  · rw [hw] at h; simp at h
  · rw [hw] at h
    dsimp only at h
    by_cases hk : k = buf.length
    · rw [if_pos hk] at h; exact ⟨s1, by rw [hk], h⟩
    · rw [if_neg hk] at h; simp at h

theorem perform_flush [FiniteWriter σ] {s s' : σ} {cs : List WCall} (h : perform s (.flush :: cs) = (true, s')) :
    ∃ s1, flush s = (.ok (), s1) ∧ perform s1 cs = (true, s') := by
  rw [perform] at h
  rcases hw : FiniteWriter.flush s with ⟨e | _, s1⟩
  · rw [hw] at h; simp at h
  · rw [hw] at h; exact ⟨s1, rfl, h⟩

theorem perform_nil [FiniteWriter σ] {s s' : σ} (h : perform s [] = (true, s')) : s = s' := by
  rw [perform] at h; simpa using h

/-- A transport that takes it all gets it in one call. -/
theorem writeLoop_whole [FiniteWriter σ] {s s1 : σ} {buf : Bytes} (hne : buf ≠ []) (h : write s buf = (.ok buf.length, s1)) :
    writeLoop c s buf = (.ok (), [], s1) := by
  unfold writeLoop
  rw [dif_neg hne]
  have hpos : buf.length ≠ 0 := mt List.length_eq_zero_iff.1 hne
  split
  · rename_i heq; rw [h] at heq; simp only [Prod.mk.injEq, Except.ok.injEq] at heq; exact absurd heq.1 hpos
  · rename_i k s2 heq
    rw [h] at heq
    simp only [Prod.mk.injEq, Except.ok.injEq] at heq
    rw [show k + 1 = buf.length from heq.1.symm, ← heq.2, List.drop_length]
    unfold writeLoop
    simp
  · rename_i heq; rw [h] at heq; simp at heq

theorem defaultWriteAll_writes [FiniteWriter σ] {s s1 : σ} {buf : Bytes} (h : perform s (writesOf [buf]) = (true, s1)) :
    defaultWriteAll c s buf = (.ok (), s1) := by
  unfold defaultWriteAll
  by_cases hb : buf = []
  · subst hb
    rw [← perform_nil h]
    unfold writeLoop; simp
  · have : writesOf [buf] = [.write buf] := by unfold writesOf; simp [hb]
    rw [this] at h
    obtain ⟨s2, h1, h2⟩ := perform_write h
    rw [← perform_nil h2, writeLoop_whole hb h1]

theorem writesOf_append (a b : List Bytes) : writesOf (a ++ b) = writesOf a ++ writesOf b := by simp [writesOf]

theorem writePieces_writes [Writer σ] (hp : ∀ (s : σ) buf, writeAll c s buf = defaultWriteAll c s buf) {s s' : σ} {ps : List Bytes}
    (h : perform s (writesOf ps) = (true, s')) : writePieces c s ps = (.ok (), s') := by
  induction ps generalizing s with
  | nil => rw [← perform_nil h]; rfl
  | cons p ps ih =>
    rw [show p :: ps = [p] ++ ps from rfl, writesOf_append] at h
    obtain ⟨s1, h1, h2⟩ := perform_append h
    unfold writePieces
    rw [hp, defaultWriteAll_writes h1]
    exact ih h2

theorem writePieces_append [Writer σ] {s s1 : σ} {a b : List Bytes} (h : writePieces c s a = (.ok (), s1)) :
    writePieces c s (a ++ b) = writePieces c s1 b := by
  induction a generalizing s with
  | nil => simp only [writePieces, Prod.mk.injEq, true_and] at h; rw [h]; rfl
  | cons p a ih =>
    rw [List.cons_append, writePieces]
    rw [writePieces] at h
    rcases hw : writeAll c s p with ⟨e | _, s2⟩
    · rw [hw] at h; simp at h
    · rw [hw] at h; exact ih h

/-! ### Copying -/

theorem delivers_rest {t' : List Ev} (he : Ended c t') :
    ∀ (x : Bytes) t bs, Delivers c (x.map .byte ++ t) bs t' → ∃ bs', bs = x ++ bs' ∧ Delivers c t bs' t' := by
  intro x
  induction x with
  | nil => intro t bs h; exact ⟨bs, rfl, h⟩
  | cons b x ih =>
    intro t bs h
    generalize hg : (b :: x).map Ev.byte ++ t = u at h
    cases h with
    | nil =>
      obtain ⟨e', h3, h4⟩ := he (.byte b) (by rw [← hg]; simp)
      simp at h3
    | byte b' h =>
      simp only [List.map_cons, List.cons_append, List.cons.injEq, Ev.byte.injEq] at hg
      rw [← hg.2] at h
      obtain ⟨bs', h1, h2⟩ := ih t _ h
      exact ⟨bs', by rw [h1, hg.1]; rfl, h2⟩
    | retry _ _ => simp at hg

theorem copy_writes [Writer σ] (hp : PlainWriteAll σ) {ρ : Type} [LawfulReader ρ] (n : Nat) : ∀ (r : ρ), (trace r).length = n →
    ∀ {bs : Bytes} {t' : List Ev}, Delivers c (trace r) bs t' → Ended c t' →
    ∃ (xs : List Bytes) (r' : ρ), (∀ x ∈ xs, x ≠ []) ∧ xs.flatten = bs ∧ ∀ (s s' : σ) k, perform s (xs.map .write) = (true, s') →
      copy c r s k = (.ok (k + xs.flatten.length), r', s') := by
  induction n using Nat.strongRecOn with
  | ind n ih =>
    intro r hn bs t' hd he
    have hgood : ∀ t bs t', Delivers c t bs t' → Ended c t' → ∀ e t'', t = .fault e :: t'' → Retried c e := by
      intro t bs t' h1 h2 e t'' ht
      cases h1 with
      | nil =>
        obtain ⟨e', h3, h4⟩ := h2 (.fault e) (by rw [ht]; simp)
        simp only [Ev.fault.injEq] at h3
        rw [h3]; exact h4
      | byte => simp at ht
      | retry h3 => simp only [List.cons.injEq, Ev.fault.injEq] at ht; rw [← ht.1]; exact h3
    have hstep := LawfulReader.read_step r _ (copySize_pos c r)
    rcases hr : read r (copySize c r) with ⟨e | _ | ⟨b, bs1⟩, r1⟩
    · rw [hr] at hstep
      have ht := hstep.error_inv
      dsimp only at ht
      have hret := hgood _ _ _ hd he e _ ht
      have hlt := trace_lt_of_error (copySize_pos c r) hr
      rw [ht] at hd
      obtain ⟨t2, hd2, he2⟩ : ∃ t2, Delivers c (trace r1) bs t2 ∧ Ended c t2 := by
        generalize hg : Ev.fault e :: trace r1 = u at hd
        cases hd with
        | nil => exact ⟨_, .nil _, fun ev hev => he ev (by rw [← hg]; simp [hev])⟩
        | byte => simp at hg
        | retry h3 h4 =>
          simp only [List.cons.injEq] at hg
          rw [← hg.2] at h4
          exact ⟨_, h4, he⟩
      obtain ⟨xs, r', h1, hfl, h2⟩ := ih _ (by omega) r1 rfl hd2 he2
      refine ⟨xs, r', h1, hfl, fun s s' k hs => ?_⟩
      rw [copy]
      split <;> rename_i heq <;> rw [hr] at heq <;> simp only [Prod.mk.injEq, reduceCtorEq, false_and, Except.error.injEq] at heq
      obtain ⟨rfl, rfl⟩ := heq
      rw [if_pos (retries_iff.2 hret)]
      exact h2 s s' k hs
    · rw [hr] at hstep
      obtain ⟨_, h0, _⟩ | ⟨h0, _⟩ := hstep.ok_inv
      · rw [h0] at hd
        have hbs : bs = [] := by
          generalize hg : ([] : List Ev) = u at hd
          cases hd with
          | nil => rfl
          | byte => simp at hg
          | retry => simp at hg
        refine ⟨[], r1, by simp, by rw [hbs]; rfl, fun s s' k hs => ?_⟩
        rw [← perform_nil hs, copy]
        split <;> rename_i heq <;> rw [hr] at heq <;>
          simp only [Prod.mk.injEq, reduceCtorEq, false_and, Except.ok.injEq, true_and] at heq
        rw [heq]; simp
      · simp at h0
    · have ht := trace_of_data (copySize_pos c r) (by simp) hr
      rw [ht] at hd
      obtain ⟨bs2, hbs, hd2⟩ := delivers_rest he _ _ _ hd
      obtain ⟨xs, r', h1, hfl, h2⟩ := ih (trace r1).length (by rw [← hn, ht]; simp; omega) r1 rfl hd2 he
      refine ⟨(b :: bs1) :: xs, r', ?_, by rw [hbs, ← hfl]; rfl, fun s s' k hs => ?_⟩
      · intro x hx
        rcases List.mem_cons.1 hx with rfl | hx
        · simp
        · exact h1 x hx
      · obtain ⟨s1, h3, h4⟩ := perform_write hs
        rw [copy]
        split <;> rename_i heq <;> rw [hr] at heq <;>
          simp only [Prod.mk.injEq, reduceCtorEq, false_and, Except.ok.injEq, List.cons.injEq] at heq
        obtain ⟨⟨rfl, rfl⟩, rfl⟩ := heq
        rw [hp]
        rw [show defaultWriteAll c s (b :: bs1) = (.ok (), s1) by
          unfold defaultWriteAll; rw [writeLoop_whole (by simp) h3]]
        dsimp only
        rw [h2 _ _ _ h4]
        simp [Nat.add_assoc, Nat.add_comm, Nat.add_left_comm]

/-! ### The heads in parts -/

theorem versionParts_pieces : (⟨1, 1⟩ : HttpVersion).pieces = versionParts := by decide +kernel

theorem request_parts {ρ : Type} (r : HttpRequest c ρ) (hv : r.version = ⟨1, 1⟩) :
    r.headPieces = requestParts r.method r.uri r.headers.entries := by
  unfold HttpRequest.headPieces requestParts
  rw [hv, versionParts_pieces, methodName_bytes]; rfl

theorem response_parts {ρ : Type} (r : HttpResponse c ρ) (hv : r.version = ⟨1, 1⟩) :
    r.headPieces = responseParts r.status.display r.headers.entries := by
  unfold HttpResponse.headPieces responseParts
  rw [hv, versionParts_pieces]; rfl

/-! ### Without a buffer -/

theorem bufWriter_plain [Writer σ] (hs : c.std = false) (w : BufWriter c σ) (buf : Bytes) :
    writeAll c w buf = defaultWriteAll c w buf := by
  show w.writeAllImpl buf = _
  unfold BufWriter.writeAllImpl
  rw [if_neg (by simp [hs])]

theorem bufWriter_write [Writer σ] (hs : c.std = false) (w : BufWriter c σ) (buf : Bytes) :
    write w buf = ((write w.inner buf).1, { w with inner := (write w.inner buf).2 }) := by
  show w.writeImpl buf = _
  unfold BufWriter.writeImpl
  rw [if_neg (by simp [hs])]

theorem bufWriter_flush [Writer σ] (hs : c.std = false) (w : BufWriter c σ) :
    flush w = ((flush w.inner).1, { w with inner := (flush w.inner).2 }) := by
  show w.flushImpl = _
  unfold BufWriter.flushImpl
  rw [if_neg (by simp [hs])]

theorem bufWriter_perform [Writer σ] (hs : c.std = false) {w : BufWriter c σ} {s' : σ} {cs : List WCall}
    (h : perform w.inner cs = (true, s')) : perform w cs = (true, { w with inner := s' }) := by
  induction cs generalizing w with
  | nil => rw [← perform_nil h]; rfl
  | cons x cs ih =>
    cases x with
    | write buf =>
      obtain ⟨s1, h1, h2⟩ := perform_write h
      rw [perform, bufWriter_write hs, h1]
      dsimp only
      rw [if_pos rfl]
      exact ih (w := { w with inner := s1 }) h2
    | flush =>
      obtain ⟨s1, h1, h2⟩ := perform_flush h
      rw [perform, bufWriter_flush hs, h1]
      exact ih (w := { w with inner := s1 }) h2

/-- The chunk of a buffer. -/
def chunkOf (buf : Bytes) : Chunk := ⟨showHex buf.length, buf, [13, 10]⟩

theorem chunkOf_for (bufs : List Bytes) (hb : ∀ b ∈ bufs, b.length < 2 ^ 64) :
    ChunksFor ((bufs.filter (· ≠ [])).map chunkOf) bufs := by
  refine ⟨?_, ?_⟩
  · intro ch hch
    obtain ⟨b, h1, rfl⟩ := List.mem_map.1 hch
    obtain ⟨h2, h3⟩ := List.mem_filter.1 h1
    exact ⟨⟨.inl (numeral_showHex _), by simpa [chunkOf] using h3, hb b h2, rfl⟩, rfl⟩
  · rw [List.map_map]
    exact List.map_id _

theorem chunkOf_emitted (bufs : List Bytes) :
    (((bufs.filter (· ≠ [])).map chunkOf).map Chunk.bytes).flatten = (bufs.map emitted).flatten := by
  induction bufs with
  | nil => rfl
  | cons b bufs ih =>
    by_cases h0 : b = []
    · rw [List.filter_cons_of_neg (by simp [h0]), ih, h0]; rfl
    · rw [List.filter_cons_of_pos (by simp [h0]), List.map_cons, List.map_cons, List.flatten_cons, ih, List.map_cons,
        List.flatten_cons]
      unfold emitted
      rw [if_neg h0]; rfl

theorem outgoingBody_writes [Writer σ] (hs : c.std = false) {b : OutgoingBody c σ} {w : BufWriter c σ} {cs : List WCall}
    (hc : NoFlush cs)
    (h : perform b.socket (writesOf (((written cs).filter (· ≠ [])).map chunkOf |>.flatMap chunkParts)) = (true, w)) :
    perform b cs = (true, ⟨w⟩) := by
  induction cs generalizing b with
  | nil => rw [← perform_nil h]; rfl
  | cons x cs ih =>
    cases x with
    | flush => exact absurd (List.mem_cons_self ..) hc
    | write buf =>
      have hc' : NoFlush cs := fun hx => hc (List.mem_cons_of_mem _ hx)
      rw [perform]
      rw [show FiniteWriter.write b buf = b.writeImpl buf from rfl]
      unfold OutgoingBody.writeImpl
      rw [written] at h
      by_cases h0 : buf = []
      · rw [List.filter_cons_of_neg (by simp [h0])] at h
        rw [if_pos (by simp [h0])]
        dsimp only
        rw [if_pos (by simp [h0])]
        exact ih hc' h
      · rw [List.filter_cons_of_pos (by simp [h0]), List.map_cons, List.flatMap_cons, writesOf_append] at h
        obtain ⟨w1, h1, h2⟩ := perform_append h
        rw [show chunkParts (chunkOf buf) = [showHex buf.length, b!"\r\n"] ++ ([buf] ++ [b!"\r\n"]) from rfl,
          writesOf_append, writesOf_append] at h1
        obtain ⟨w2, h3, h4⟩ := perform_append h1
        obtain ⟨w3, h5, h6⟩ := perform_append h4
        rw [if_neg (by simpa using h0), writePieces_writes (bufWriter_plain hs) h3]
        dsimp only
        rw [bufWriter_plain hs, defaultWriteAll_writes h5]
        dsimp only
        rw [writePieces_writes (bufWriter_plain hs) h6]
        dsimp only
        rw [if_pos rfl]
        exact ih hc' h2

/-! ### With a buffer -/

theorem writeAll_short [Writer σ] (hs : c.std = true) {w : BufWriter c σ} {p : Bytes} (hl : w.buf.length + p.length < bufCap) :
    writeAll c w p = (.ok (), { w with buf := w.buf ++ p }) := by
  show w.writeAllImpl p = _
  unfold BufWriter.writeAllImpl
  rw [if_pos hs, if_pos (by omega)]

theorem outgoingBody_short [Writer σ] (hs : c.std = true) {b : OutgoingBody c σ} {cs : List WCall} (hc : NoFlush cs)
    (hl : b.socket.buf.length + ((written cs).map emitted).flatten.length < bufCap) :
    perform b cs = (true, ⟨{ b.socket with buf := b.socket.buf ++ ((written cs).map emitted).flatten }⟩) := by
  induction cs generalizing b with
  | nil => rw [perform]; simp [written]
  | cons x cs ih =>
    cases x with
    | flush => exact absurd (List.mem_cons_self ..) hc
    | write buf =>
      have hc' : NoFlush cs := fun hx => hc (List.mem_cons_of_mem _ hx)
      rw [perform]
      rw [show FiniteWriter.write b buf = b.writeImpl buf from rfl]
      unfold OutgoingBody.writeImpl
      rw [written, List.map_cons, List.flatten_cons] at hl ⊢
      rw [List.length_append] at hl
      by_cases h0 : buf = []
      · rw [if_pos (by simp [h0])]
        dsimp only
        rw [if_pos (by simp [h0]), ih hc' (by omega)]
        simp [h0, emitted]
      · have he : emitted buf = showHex buf.length ++ [13, 10] ++ buf ++ [13, 10] := by unfold emitted; rw [if_neg h0]
        have hlen : (emitted buf).length = (showHex buf.length).length + 2 + buf.length + 2 := by rw [he]; simp; omega
        rw [if_neg (by simpa using h0), writePieces_short hs (by simp; omega)]
        dsimp only
        rw [writeAll_short hs (by simp; omega)]
        dsimp only
        rw [writePieces_short hs (by simp; omega)]
        dsimp only
        rw [if_pos rfl, ih hc' (by
          simp only [List.length_append, List.flatten_cons, List.flatten_nil, List.length_nil, List.length_cons]; omega), he]
        simp

end

end HttpIo
